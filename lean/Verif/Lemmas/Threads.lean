import Verif.Model.Threads
/-! # Threads that keep to their own cells do not see each other -/
namespace Ublas
namespace Threads
open Search
variable {R A B : Type}

/-- Contents of a cell. -/
def TMem.peek (m : TMem R) : Loc → Option (Nat ⊕ R)
  | .nat arr off => ((m.nat arr)[off]?).map .inl
  | .elt off => (m.elt[off]?).map .inr

theorem peek_nat {m : TMem R} {arr off v : Nat} : m.peek (.nat arr off) = some (.inl v) ↔ (m.nat arr)[off]? = some v := by simp [TMem.peek]
theorem peek_elt {m : TMem R} {off : Nat} {v : R} : m.peek (.elt off) = some (.inr v) ↔ m.elt[off]? = some v := by simp [TMem.peek]

theorem peek_setN (m : TMem R) (arr off v : Nat) (h : off < (m.nat arr).length) (l : Loc) :
    (m.setN arr ((m.nat arr).set off v)).peek l = if l = .nat arr off then some (.inl v) else m.peek l := by
  cases l with
  | nat a k =>
    show Option.map _ (if a = arr then (m.nat arr).set off v else m.nat a)[k]? = _
    by_cases ha : a = arr
    · subst ha
      rw [if_pos rfl, List.getElem?_set]
      by_cases hk : off = k
      · subst hk; simp [h]
      · rw [if_neg hk, if_neg (by simpa using fun e => hk e.symm)]; rfl
    · rw [if_neg ha, if_neg (by simpa using fun e => absurd e ha)]; rfl
  | elt k => rw [if_neg (by simp)]; rfl

theorem peek_setR (m : TMem R) (off : Nat) (v : R) (h : off < m.elt.length) (l : Loc) :
    ({ m with elt := m.elt.set off v } : TMem R).peek l = if l = .elt off then some (.inr v) else m.peek l := by
  cases l with
  | nat a k => rw [if_neg (by simp)]; rfl
  | elt k =>
    show Option.map _ (m.elt.set off v)[k]? = _
    rw [List.getElem?_set]
    by_cases hk : off = k
    · subst hk; simp [h]
    · rw [if_neg hk, if_neg (by simpa using fun e => hk e.symm)]; rfl

/-- `p`, run alone from `m`, takes `n` steps, returns `a`, leaves `m'`, reads only cells in `own` or `ro` and writes only cells in `own`. -/
inductive ConfN (own ro : Loc → Prop) : Nat → TMem R → Th R A → A → TMem R → Prop
  | ret (m : TMem R) (a : A) : ConfN own ro 0 m (.ret a) a m
  | rdN {n m d arr off v k a m'} : own (.nat arr off) ∨ ro (.nat arr off) → (m.nat arr)[off]? = some v → ConfN own ro n m (k v) a m' → ConfN own ro (n + 1) m (.rdN d arr off k) a m'
  | rdR {n m d off v k a m'} : own (.elt off) ∨ ro (.elt off) → m.elt[off]? = some v → ConfN own ro n m (k v) a m' → ConfN own ro (n + 1) m (.rdR d off k) a m'
  | wrN {n m d arr off v k a m'} : own (.nat arr off) → off < (m.nat arr).length → ConfN own ro n (m.setN arr ((m.nat arr).set off v)) k a m' → ConfN own ro (n + 1) m (.wrN d arr off v k) a m'
  | wrR {n m d off v k a m'} : own (.elt off) → off < m.elt.length → ConfN own ro n { m with elt := m.elt.set off v } k a m' → ConfN own ro (n + 1) m (.wrR d off v k) a m'

/-- `ConfN` for some number of steps. -/
def Conf (own ro : Loc → Prop) (m : TMem R) (p : Th R A) (a : A) (m' : TMem R) : Prop := ∃ n, ConfN own ro n m p a m'

variable {own ro : Loc → Prop}

theorem ConfN.bind {n1 n2 : Nat} {m m1 m2 : TMem R} {p : Th R A} {f : A → Th R B} {a : A} {b : B} (h : ConfN own ro n1 m p a m1) (h2 : ConfN own ro n2 m1 (f a) b m2) :
    ConfN own ro (n1 + n2) m (p.bind f) b m2 := by
  induction h with
  | ret m a => rw [Nat.zero_add]; exact h2
  | rdN hc hv _ ih => rw [Nat.add_right_comm]; exact .rdN hc hv (ih h2)
  | rdR hc hv _ ih => rw [Nat.add_right_comm]; exact .rdR hc hv (ih h2)
  | wrN hc hv _ ih => rw [Nat.add_right_comm]; exact .wrN hc hv (ih h2)
  | wrR hc hv _ ih => rw [Nat.add_right_comm]; exact .wrR hc hv (ih h2)

theorem Conf.bind {m m1 m2 : TMem R} {p : Th R A} {f : A → Th R B} {a : A} {b : B} (h : Conf own ro m p a m1) (h2 : Conf own ro m1 (f a) b m2) : Conf own ro m (p >>= f) b m2 := by
  obtain ⟨n1, h⟩ := h
  obtain ⟨n2, h2⟩ := h2
  exact ⟨_, h.bind h2⟩

theorem Conf.ret (m : TMem R) (a : A) : Conf own ro m (.ret a) a m := ⟨0, .ret m a⟩
theorem Conf.rN {m : TMem R} {d : Bool} {arr off v : Nat} (hc : own (.nat arr off) ∨ ro (.nat arr off)) (hv : (m.nat arr)[off]? = some v) : Conf own ro m (getN d arr off) v m :=
  ⟨1, .rdN hc hv (.ret _ _)⟩
theorem Conf.rR {m : TMem R} {d : Bool} {off : Nat} {v : R} (hc : own (.elt off) ∨ ro (.elt off)) (hv : m.elt[off]? = some v) : Conf own ro m (getR d off) v m :=
  ⟨1, .rdR hc hv (.ret _ _)⟩
theorem Conf.wN {m : TMem R} {d : Bool} {arr off v : Nat} (hc : own (.nat arr off)) (hv : off < (m.nat arr).length) :
    Conf own ro m (putN d arr off v) () (m.setN arr ((m.nat arr).set off v)) := ⟨1, .wrN hc hv (.ret _ _)⟩
theorem Conf.wR {m : TMem R} {d : Bool} {off : Nat} {v : R} (hc : own (.elt off)) (hv : off < m.elt.length) : Conf own ro m (putR d off v) () { m with elt := m.elt.set off v } :=
  ⟨1, .wrR hc hv (.ret _ _)⟩
theorem Conf.chk {m : TMem R} {d : Bool} {p : Prop} [Decidable p] {f : Fault} (h : p) : Conf own ro m (checkT d p f) () m := by
  unfold checkT; rw [if_neg (by simp [h])]; exact .ret m ()

/-- Changing the memory name. -/
theorem Conf.of_eq {m m' m'' : TMem R} {p : Th R A} {a : A} (h : Conf own ro m p a m') (e : m' = m'') : Conf own ro m p a m'' := e ▸ h

/-- A thread's state during a run: `mt` is the memory it would have if it ran alone. -/
structure Alone (own ro : Loc → Prop) (N cnt : Nat) (mem : TMem R) (p : Th R A) (a : A) (mf : TMem R) : Prop where
  ex : ∃ n mt, ConfN own ro n mt p a mf ∧ (∀ l, own l ∨ ro l → mem.peek l = mt.peek l) ∧ n ≤ N - cnt

/-- Threads with disjoint cells of their own. -/
structure Apart (own : Nat → Loc → Prop) (ro : Loc → Prop) : Prop where
  excl : ∀ t u l, own t l → own u l → t = u
  rest : ∀ t l, own t l → ¬ ro l

/-- The invariant of a run. -/
structure RunInv (own : Nat → Loc → Prop) (ro : Loc → Prop) (N : Nat → Nat) (m0 : TMem R) (a : Nat → A) (mf : Nat → TMem R) (sched : List Nat) (c : Cfg R A) : Prop where
  alone : ∀ t, Alone (own t) ro (N t) (sched.count t) c.mem (c.th t) (a t) (mf t)
  frame : ∀ l, (∀ t, ¬ own t l) → c.mem.peek l = m0.peek l
  log : ∀ e ∈ c.log, own e.thread e.loc ∨ (ro e.loc ∧ e.write = false)

theorem rd_peekN {m mt : TMem R} {d : Bool} {arr off v : Nat} (e : m.peek (.nat arr off) = mt.peek (.nat arr off)) (h : (mt.nat arr)[off]? = some v) : rd d (m.nat arr) off = .ok v :=
  rd_eq_ok.2 (peek_nat.1 (e.trans (peek_nat.2 h)))
theorem rd_peekR {m mt : TMem R} {d : Bool} {off : Nat} {v : R} (e : m.peek (.elt off) = mt.peek (.elt off)) (h : mt.elt[off]? = some v) : rd d m.elt off = .ok v :=
  rd_eq_ok.2 (peek_elt.1 (e.trans (peek_elt.2 h)))

theorem RunInv.step {own : Nat → Loc → Prop} {ro : Loc → Prop} (hd : Apart own ro) {N : Nat → Nat} {m0 : TMem R} {a : Nat → A} {mf : Nat → TMem R} {sched : List Nat} {c : Cfg R A}
    (h : RunInv own ro N m0 a mf sched c) (t : Nat) : ∃ c', c.step t = .ok c' ∧ RunInv own ro N m0 a mf (sched ++ [t]) c' := by
  obtain ⟨n, mt, hc, hp, hn⟩ := (h.alone t).ex
  have hcnt : ∀ u, (sched ++ [t]).count u = sched.count u + if u = t then 1 else 0 := by
    intro u; rw [List.count_append, List.count_singleton]; congr 1
    by_cases hu : u = t
    · subst hu; simp
    · rw [if_neg hu]; simp [Ne.symm hu]
  -- a step that leaves the memory alone
  have quiet : ∀ (p' : Th R A) (n' : Nat) (ev : List Event), n' ≤ n - 1 → ConfN (own t) ro n' mt p' (a t) (mf t) → (∀ e ∈ ev, own e.thread e.loc ∨ (ro e.loc ∧ e.write = false)) →
      RunInv own ro N m0 a mf (sched ++ [t]) ⟨fun u => if u = t then p' else c.th u, c.mem, c.log ++ ev⟩ := by
    intro p' n' ev hn' hc' hev
    refine ⟨fun u => ?_, h.frame, fun e he => (List.mem_append.1 he).elim (h.log e) (hev e)⟩
    by_cases hu : u = t
    · subst hu
      exact ⟨n', mt, by simpa using hc', hp, by rw [hcnt, if_pos rfl]; omega⟩
    · obtain ⟨n1, m1, q1, q2, q3⟩ := (h.alone u).ex
      exact ⟨n1, m1, by simpa [hu] using q1, q2, by rw [hcnt, if_neg hu]; omega⟩
  -- a step that writes cell `l` of thread `t`
  have noisy : ∀ (p' : Th R A) (n' : Nat) (l : Loc) (x : Nat ⊕ R) (m' mt' : TMem R), n' ≤ n - 1 → own t l → ConfN (own t) ro n' mt' p' (a t) (mf t) →
      (∀ l', m'.peek l' = if l' = l then some x else c.mem.peek l') → (∀ l', mt'.peek l' = if l' = l then some x else mt.peek l') →
      RunInv own ro N m0 a mf (sched ++ [t]) ⟨fun u => if u = t then p' else c.th u, m', c.log ++ [⟨t, l, true⟩]⟩ := by
    intro p' n' l x m' mt' hn' hl hc' hm' hmt'
    refine ⟨fun u => ?_, fun l' hl' => ?_, fun e he => ?_⟩
    · by_cases hu : u = t
      · subst hu
        refine ⟨n', mt', by simpa using hc', fun l' hl' => ?_, by rw [hcnt, if_pos rfl]; omega⟩
        show m'.peek l' = _
        rw [hm', hmt']
        split
        · rfl
        · exact hp l' hl'
      · obtain ⟨n1, m1, q1, q2, q3⟩ := (h.alone u).ex
        refine ⟨n1, m1, by simpa [hu] using q1, fun l' hl' => ?_, by rw [hcnt, if_neg hu]; omega⟩
        show m'.peek l' = _
        rw [hm', if_neg, q2 l' hl']
        rintro rfl
        rcases hl' with hl' | hl'
        · exact hu (hd.excl _ _ _ hl' hl)
        · exact hd.rest _ _ hl hl'
    · show m'.peek l' = _
      rw [hm', if_neg, h.frame l' hl']
      rintro rfl
      exact hl' t hl
    · rcases List.mem_append.1 he with he | he
      · exact h.log e he
      · rw [List.mem_singleton] at he; subst he; exact .inl hl
  unfold Cfg.step
  generalize hT : c.th t = p at hc
  cases hc with
  | ret =>
    refine ⟨_, rfl, quiet (.ret (a t)) 0 [] (by omega) (.ret _ _) (by simp)⟩
  | @rdN n m d arr off v k _ _ hc hv hk =>
    have : rd d (c.mem.nat arr) off = .ok v := rd_peekN (hp _ hc) hv
    refine ⟨_, by simp only [Th.step, this, bind_ok]; rfl, quiet (k v) n _ (by omega) hk ?_⟩
    intro e he; rw [List.mem_singleton] at he; subst he
    exact hc.imp_right fun h => ⟨h, rfl⟩
  | @rdR n m d off v k _ _ hc hv hk =>
    have : rd d c.mem.elt off = .ok v := rd_peekR (hp _ hc) hv
    refine ⟨_, by simp only [Th.step, this, bind_ok]; rfl, quiet (k v) n _ (by omega) hk ?_⟩
    intro e he; rw [List.mem_singleton] at he; subst he
    exact hc.imp_right fun h => ⟨h, rfl⟩
  | @wrN n m d arr off v k _ _ hc hv hk =>
    have hlt : off < (c.mem.nat arr).length := by
      have h1 : (mt.nat arr)[off]? = some (mt.nat arr)[off] := List.getElem?_eq_getElem hv
      have := peek_nat.1 ((hp _ (.inl hc)).trans (peek_nat.2 h1))
      exact (List.getElem?_eq_some_iff.1 this).1
    refine ⟨_, by simp only [Th.step, wr_ok hlt, bind_ok], noisy k n (.nat arr off) (.inl v) _ _ (by omega) hc hk (peek_setN c.mem arr off v hlt) (peek_setN mt arr off v hv)⟩
  | @wrR n m d off v k _ _ hc hv hk =>
    have hlt : off < c.mem.elt.length := by
      have h1 : mt.elt[off]? = some mt.elt[off] := List.getElem?_eq_getElem hv
      have := peek_elt.1 ((hp _ (.inl hc)).trans (peek_elt.2 h1))
      exact (List.getElem?_eq_some_iff.1 this).1
    refine ⟨_, by simp only [Th.step, wr_ok hlt, bind_ok], noisy k n (.elt off) (.inr v) _ _ (by omega) hc hk (peek_setR c.mem off v hlt) (peek_setR mt off v hv)⟩

theorem run_inv {own : Nat → Loc → Prop} {ro : Loc → Prop} (hd : Apart own ro) {N : Nat → Nat} {m0 : TMem R} {a : Nat → A} {mf : Nat → TMem R} (sched : List Nat) :
    ∀ (pre : List Nat) (c : Cfg R A), RunInv own ro N m0 a mf pre c → ∃ c', sched.foldlM Cfg.step c = .ok c' ∧ RunInv own ro N m0 a mf (pre ++ sched) c' := by
  induction sched with
  | nil => intro pre c h; exact ⟨c, rfl, by simpa using h⟩
  | cons t sched ih =>
    intro pre c h
    obtain ⟨c1, e1, h1⟩ := h.step hd t
    obtain ⟨c2, e2, h2⟩ := ih _ c1 h1
    refine ⟨c2, by rw [List.foldlM_cons, e1]; exact e2, by simpa using h2⟩

theorem ConfN.ret_eq {n : Nat} {m m' : TMem R} {a b : A} (h : ConfN own ro n m (.ret b) a m') : b = a ∧ m = m' := by cases h; exact ⟨rfl, rfl⟩
theorem ConfN.zero {m m' : TMem R} {p : Th R A} {a : A} (h : ConfN own ro 0 m p a m') : p = .ret a := by cases h; rfl

/-- Threads that keep to their own cells and to cells nobody writes: in every interleaving there is no fault and no data race, each thread that gets enough steps finishes, a finished thread has
returned what it returns alone and its own cells contain what it leaves there alone, and no other cell changes. -/
theorem execute_ok {own : Nat → Loc → Prop} {ro : Loc → Prop} (hd : Apart own ro) {m0 : TMem R} {th : Nat → Th R A} {a : Nat → A} {mf : Nat → TMem R}
    (h : ∀ t, Conf (own t) ro m0 (th t) (a t) (mf t)) :
    ∃ N : Nat → Nat, ∀ sched, ∃ c, execute sched th m0 = .ok c ∧ RaceFree c.log ∧ (∀ t, N t ≤ sched.count t → c.th t = .ret (a t)) ∧
      (∀ t b, c.th t = .ret b → b = a t ∧ ∀ l, own t l → c.mem.peek l = (mf t).peek l) ∧ ∀ l, (∀ t, ¬ own t l) → c.mem.peek l = m0.peek l := by
  obtain ⟨N, hN⟩ : ∃ N : Nat → Nat, ∀ t, ConfN (own t) ro (N t) m0 (th t) (a t) (mf t) := ⟨fun t => (h t).choose, fun t => (h t).choose_spec⟩
  refine ⟨N, fun sched => ?_⟩
  obtain ⟨c, e, hi⟩ := run_inv hd (N := N) (m0 := m0) (a := a) (mf := mf) sched [] ⟨th, m0, []⟩
    ⟨fun t => ⟨N t, m0, hN t, fun _ _ => rfl, by simp⟩, fun _ _ => rfl, by simp⟩
  rw [List.nil_append] at hi
  refine ⟨c, e, ?_, fun t ht => ?_, fun t b hb => ?_, hi.frame⟩
  · intro e1 h1 e2 h2 hne hl
    rcases hi.log e1 h1 with o1 | ⟨r1, w1⟩
    · rcases hi.log e2 h2 with o2 | ⟨r2, w2⟩
      · exact absurd (hd.excl _ _ _ o1 (hl ▸ o2)) hne
      · exact absurd r2 (hd.rest _ _ (hl ▸ o1))
    · rcases hi.log e2 h2 with o2 | ⟨r2, w2⟩
      · exact absurd (hl ▸ r1) (hd.rest _ _ o2)
      · exact ⟨w1, w2⟩
  · obtain ⟨n, mt, q1, q2, q3⟩ := (hi.alone t).ex
    have : n = 0 := by omega
    subst this
    exact q1.zero
  · obtain ⟨n, mt, q1, q2, q3⟩ := (hi.alone t).ex
    rw [hb] at q1
    obtain ⟨rfl, rfl⟩ := q1.ret_eq
    exact ⟨rfl, fun l hl => q2 l (.inl hl)⟩

end Threads
end Ublas
