import Verif.Spec.IO
import Mathlib.Tactic.Cases
/-! # Streams and comma-separated lists -/
namespace Ublas.IO
variable {σ R : Type}

@[simp] theorem skipWs_idem (b : List Char) : skipWs (skipWs b) = skipWs b := by
  induction b with
  | nil => rfl
  | cons c b ih =>
    by_cases h : isWs c = true
    · simpa [skipWs, List.dropWhile_cons, h] using ih
    · simp [skipWs, List.dropWhile_cons, h]

theorem scan_append (E : ElemIO R) : ∀ (a : List (Tok R)) (b : List (Tok R)) (x z : List Char), Scan E (a ++ b) x z ↔ ∃ y, Scan E a x y ∧ Scan E b y z
  | [], b, x, z => by simp [Scan]
  | .ch c :: a, b, x, z => by
    simp only [List.cons_append, Scan, scan_append E a b]
    exact ⟨fun ⟨b', h, y, h1, h2⟩ => ⟨y, ⟨b', h, h1⟩, h2⟩, fun ⟨y, ⟨b', h, h1⟩, h2⟩ => ⟨b', h, y, h1, h2⟩⟩
  | .size n :: a, b, x, z => by
    simp only [List.cons_append, Scan, scan_append E a b]
    exact ⟨fun ⟨b', h, y, h1, h2⟩ => ⟨y, ⟨b', h, h1⟩, h2⟩, fun ⟨y, ⟨b', h, h1⟩, h2⟩ => ⟨b', h, y, h1, h2⟩⟩
  | .elem e :: a, b, x, z => by
    simp only [List.cons_append, Scan, scan_append E a b]
    exact ⟨fun ⟨b', h, y, h1, h2⟩ => ⟨y, ⟨b', h, h1⟩, h2⟩, fun ⟨y, ⟨b', h, h1⟩, h2⟩ => ⟨b', h, y, h1, h2⟩⟩

theorem differs_eq {c : Char} {b b' : List Char} (h : skipWs b = c :: b') : IS.differs c ⟨b, true⟩ = (false, ⟨b', true⟩) := by
  simp [IS.differs, IS.get, h]

theorem differs_ne {c d : Char} {b b' : List Char} (h : skipWs b = d :: b') (hd : d ≠ c) : IS.differs c ⟨b, true⟩ = (true, ⟨skipWs b, true⟩) := by
  simp [IS.differs, IS.get, h, hd]

theorem differs_failed (c : Char) (b : List Char) : IS.differs c ⟨b, false⟩ = (false, ⟨b, false⟩) := by
  simp [IS.differs, IS.get]

theorem differs_eof {c : Char} {b : List Char} (h : skipWs b = []) : IS.differs c ⟨b, true⟩ = (false, ⟨[], false⟩) := by
  simp [IS.differs, IS.get, h]

/-- What `if (is >> ch && ch != c)` does on every stream. -/
theorem differs_cases (c : Char) (s : IS) :
    ((s.differs c).1 = false ∧ (s.differs c).2.ok = false) ∨
    (s.ok = true ∧ (s.differs c).1 = false ∧ (s.differs c).2.ok = true ∧ skipWs s.buf = c :: (s.differs c).2.buf) ∨
    (s.ok = true ∧ (s.differs c).1 = true ∧ (s.differs c).2.ok = true ∧ (s.differs c).2.buf = skipWs s.buf ∧ ∀ b', skipWs s.buf ≠ c :: b') := by
  obtain ⟨b, ok⟩ := s
  cases ok
  · simp [differs_failed]
  · cases h : skipWs b with
    | nil => simp [differs_eof h]
    | cons d b' =>
      by_cases hd : d = c
      · subst hd; simp [differs_eq h, h]
      · simp [differs_ne h hd, h, hd]

/-- An item of a list: the tokens `T i x ts x'` lead from `x` to `x'`, and nothing else is accepted. -/
structure Reads (E : ElemIO R) (n : Nat) (Inv : σ → Prop) (T : Nat → σ → List (Tok R) → σ → Prop) (item : Nat → σ → IS → M (Bool × σ × IS)) : Prop where
  accept : ∀ i x ts x' b b', i < n → Inv x → T i x ts x' → Scan E ts b b' → item i x ⟨b, true⟩ = .ok (false, x', ⟨b', true⟩)
  total : ∀ i x s, i < n → Inv x → ∃ br x' s', item i x s = .ok (br, x', s') ∧ Inv x' ∧
    (s'.ok = true → s.ok = true ∧ br = false ∧ ∃ ts, T i x ts x' ∧ Scan E ts s.buf s'.buf)

/-- What follows the opening parenthesis of a list. -/
def tail (tss : List (List (Tok R))) (extra : Bool) : List (Tok R) := sepBy tss ++ (if extra then [.ch ','] else []) ++ [.ch ')']

/-- A loop over the items of a list: it accepts the item sequences `C x tss x'`, up to the closing parenthesis. -/
structure LoopReads (E : ElemIO R) (Inv : σ → Prop) (C : σ → List (List (Tok R)) → σ → Prop) (L : σ → IS → M (σ × IS)) : Prop where
  accept : ∀ x tss x' extra b b', Inv x → C x tss x' → (extra = true → tss ≠ []) → Scan E (tail tss extra) b b' →
    ∃ b1, L x ⟨b, true⟩ = .ok (x', ⟨b1, true⟩) ∧ skipWs b1 = ')' :: b'
  total : ∀ x s, Inv x → ∃ x' s', L x s = .ok (x', s') ∧ Inv x' ∧ (s'.ok = true → s.ok = true ∧ ∀ b', skipWs s'.buf = ')' :: b' →
    ∃ tss extra, C x tss x' ∧ (extra = true → tss ≠ []) ∧ Scan E (tail tss extra) s.buf b')

/-- Item sequences from item `i` on. -/
def Chain (T : Nat → σ → List (Tok R) → σ → Prop) : (k i : Nat) → σ → List (List (Tok R)) → σ → Prop
  | 0, _, x, tss, x' => tss = [] ∧ x' = x
  | k + 1, i, x, tss, x' => ∃ ts r y, tss = ts :: r ∧ T i x ts y ∧ Chain T k (i + 1) y r x'

theorem chain_ne {T : Nat → σ → List (Tok R) → σ → Prop} {k i : Nat} {x x' : σ} {tss : List (List (Tok R))} (h : Chain T k i x tss x') : tss = [] ↔ k = 0 := by
  cases k with
  | zero => simp [h.1]
  | succ k =>
    obtain ⟨ts, r, y, rfl, -⟩ := h
    simp

theorem tail_nil : tail ([] : List (List (Tok R))) false = [.ch ')'] := rfl
theorem tail_one (ts : List (Tok R)) : tail [ts] false = ts ++ [.ch ')'] := by simp [tail, sepBy]
theorem tail_one_comma (ts : List (Tok R)) : tail [ts] true = ts ++ (.ch ',' :: [.ch ')']) := by simp [tail, sepBy]
theorem tail_cons (ts u : List (Tok R)) (r : List (List (Tok R))) (extra : Bool) : tail (ts :: u :: r) extra = ts ++ (.ch ',' :: tail (u :: r) extra) := by
  simp [tail, sepBy]

theorem items_reads {E : ElemIO R} {n : Nat} {Inv : σ → Prop} {T : Nat → σ → List (Tok R) → σ → Prop} {item : Nat → σ → IS → M (Bool × σ × IS)} (h : Reads E n Inv T item) :
    ∀ k i, i + k = n → LoopReads E Inv (Chain T k i) (itemsLoop n item k i) := by
  intro k
  induction k with
  | zero =>
    intro i _
    refine ⟨?_, ?_⟩
    · intro x tss x' extra b b' _ hC he hs
      obtain ⟨rfl, rfl⟩ := hC
      have : extra = false := by cases extra; rfl; exact absurd rfl (he rfl)
      subst this
      rw [tail_nil] at hs
      obtain ⟨b1, e1, e2⟩ := hs
      exact ⟨b, rfl, by rw [e1, e2]⟩
    · intro x s hx
      exact ⟨x, s, rfl, hx, fun hk => ⟨hk, fun b' hb => ⟨[], false, ⟨rfl, rfl⟩, by simp, by rw [tail_nil]; exact ⟨b', hb, rfl⟩⟩⟩⟩
  | succ k ih =>
    intro i hi
    have ih := ih (i + 1) (by omega)
    refine ⟨?_, ?_⟩
    · intro x tss x' extra b b' hx hC he hs
      obtain ⟨ts, r, y, rfl, hT, hC⟩ := hC
      have step : ∀ b1, Scan E ts b b1 → item i x ⟨b, true⟩ = .ok (false, y, ⟨b1, true⟩) ∧ Inv y := by
        intro b1 h1
        have e := h.accept i x ts y b b1 (by omega) hx hT h1
        obtain ⟨br, x2, s2, e2, h2, -⟩ := h.total i x ⟨b, true⟩ (by omega) hx
        rw [e] at e2
        have := Except.ok.inj e2
        simp only [Prod.mk.injEq] at this
        exact ⟨e, this.2.1 ▸ h2⟩
      cases r with
      | nil =>
        have hk : k = 0 := (chain_ne hC).1 rfl
        subst hk
        obtain ⟨-, rfl⟩ := hC
        cases extra with
        | false =>
          rw [tail_one, scan_append] at hs
          obtain ⟨b1, h1, b2, h2, h3⟩ := hs
          obtain ⟨e, -⟩ := step b1 h1
          refine ⟨skipWs b1, ?_, by rw [skipWs_idem, h2, h3]⟩
          simp only [itemsLoop, e, bind_ok, Bool.false_eq_true, if_false, differs_ne h2 (show (')' : Char) ≠ ',' by decide), if_true]
          rw [if_neg (by omega)]
        | true =>
          rw [tail_one_comma, scan_append] at hs
          obtain ⟨b1, h1, b2, h2, b3, h3, h4⟩ := hs
          obtain ⟨e, -⟩ := step b1 h1
          refine ⟨b2, ?_, by rw [h3, h4]⟩
          simp only [itemsLoop, e, bind_ok, Bool.false_eq_true, if_false, differs_eq h2]
      | cons u r =>
        rw [tail_cons, scan_append] at hs
        obtain ⟨b1, h1, b2, h2, h3⟩ := hs
        obtain ⟨e, hy⟩ := step b1 h1
        obtain ⟨b4, e4, h4⟩ := ih.accept y (u :: r) x' extra b2 b' hy hC (by simp) h3
        refine ⟨b4, ?_, h4⟩
        rw [← e4]
        simp only [itemsLoop, e, bind_ok, Bool.false_eq_true, if_false, differs_eq h2]
    · intro x s hx
      obtain ⟨br, y, s1, e, hy, hT⟩ := h.total i x s (by omega) hx
      simp only [itemsLoop, e, bind_ok]
      cases br with
      | true =>
        refine ⟨y, s1, by simp, hy, fun hk => ?_⟩
        exact absurd (hT hk).2.1 (by simp)
      | false =>
        simp only [Bool.false_eq_true, if_false]
        rcases differs_cases ',' s1 with ⟨d1, d2⟩ | ⟨d1, d2, d3, d4⟩ | ⟨d1, d2, d3, d4, d5⟩
        · obtain ⟨x', s', e', h1, h2⟩ := ih.total y (s1.differs ',').2 hy
          refine ⟨x', s', by simp [d1, e'], h1, fun hk => ?_⟩
          have := (h2 hk).1
          rw [d2] at this; simp at this
        · obtain ⟨a1, -, ts, a2, a3⟩ := hT d1
          obtain ⟨x', s', e', h1, h2⟩ := ih.total y (s1.differs ',').2 hy
          refine ⟨x', s', by simp [d2, e'], h1, fun hk => ⟨a1, fun b' hb => ?_⟩⟩
          obtain ⟨tss, extra, c1, c2, c3⟩ := (h2 hk).2 b' hb
          cases tss with
          | nil =>
            have : extra = false := by cases extra; rfl; exact absurd rfl (c2 rfl)
            subst this
            refine ⟨[ts], true, ⟨ts, [], y, rfl, a2, c1⟩, by simp, ?_⟩
            rw [tail_one_comma, scan_append]
            exact ⟨_, a3, _, d4, by rw [← tail_nil]; exact c3⟩
          | cons u r =>
            refine ⟨ts :: u :: r, extra, ⟨ts, u :: r, y, rfl, a2, c1⟩, by simp, ?_⟩
            rw [tail_cons, scan_append]
            exact ⟨_, a3, _, d4, c3⟩
        · obtain ⟨a1, -, ts, a2, a3⟩ := hT d1
          by_cases hl : i < n - 1
          · refine ⟨y, (s1.differs ',').2.fail, by simp [d2, hl], hy, fun hk => ?_⟩
            simp [IS.fail] at hk
          · have hk : k = 0 := by omega
            subst hk
            refine ⟨y, (s1.differs ',').2, by simp [d2, hl, itemsLoop], hy, fun _ => ⟨a1, fun b' hb => ?_⟩⟩
            refine ⟨[ts], false, ⟨ts, [], y, rfl, a2, rfl, rfl⟩, by simp, ?_⟩
            rw [tail_one, scan_append]
            refine ⟨_, a3, b', ?_, rfl⟩
            rw [d4, skipWs_idem] at hb
            exact hb

/-- Opening parenthesis, items, closing parenthesis. -/
theorem list_reads {E : ElemIO R} {n : Nat} {Inv : σ → Prop} {C : Nat → σ → List (List (Tok R)) → σ → Prop} {L : Nat → σ → IS → M (σ × IS)} (h : ∀ i, i < n → LoopReads E Inv (C i) (L i)) :
    Reads E n Inv (fun i x ts x' => ∃ tss extra, ts = list tss extra ∧ C i x tss x' ∧ (extra = true → tss ≠ [])) fun i x s =>
      (if (s.differs '(').1 then .ok (true, x, (s.differs '(').2.fail) else do
        let r ← L i x (s.differs '(').2
        if (r.2.differs ')').1 then .ok (true, r.1, (r.2.differs ')').2.fail) else .ok (false, r.1, (r.2.differs ')').2) : M (Bool × σ × IS)) := by
  refine ⟨?_, ?_⟩
  · rintro i x ts x' b b' hi hx ⟨tss, extra, rfl, hC, he⟩ hs
    obtain ⟨b1, h1, h2⟩ := hs
    obtain ⟨b2, e2, h2⟩ := (h i hi).accept x tss x' extra b1 b' hx hC he h2
    simp only [differs_eq h1, Bool.false_eq_true, if_false, e2, bind_ok, differs_eq h2]
  · intro i x s hi hx
    rcases differs_cases '(' s with ⟨d1, d2⟩ | ⟨d1, d2, d3, d4⟩ | ⟨d1, d2, -⟩
    · obtain ⟨x', s', e', h1, h2⟩ := (h i hi).total x (s.differs '(').2 hx
      have hk : s' = ⟨s'.buf, false⟩ := by
        obtain ⟨b, ok⟩ := s'
        cases ok
        · rfl
        · have := (h2 rfl).1; rw [d2] at this; simp at this
      rw [hk] at e'
      refine ⟨false, x', ⟨s'.buf, false⟩, ?_, h1, by simp⟩
      simp only [d1, Bool.false_eq_true, if_false, e', bind_ok, differs_failed]
    · obtain ⟨x', s', e', h1, h2⟩ := (h i hi).total x (s.differs '(').2 hx
      rcases differs_cases ')' s' with ⟨g1, g2⟩ | ⟨g1, g2, g3, g4⟩ | ⟨g1, g2, -⟩
      · refine ⟨false, x', (s'.differs ')').2, ?_, h1, by simp [g2]⟩
        simp [d2, e', g1]
      · refine ⟨false, x', (s'.differs ')').2, ?_, h1, fun _ => ⟨d1, rfl, ?_⟩⟩
        · simp [d2, e', g2]
        · obtain ⟨tss, extra, c1, c2, c3⟩ := (h2 g1).2 _ g4
          exact ⟨list tss extra, ⟨tss, extra, rfl, c1, c2⟩, _, d4, c3⟩
      · refine ⟨true, x', (s'.differs ')').2.fail, ?_, h1, by simp [IS.fail]⟩
        simp [d2, e', g2]
    · exact ⟨true, x, (s.differs '(').2.fail, by simp [d2], hx, by simp [IS.fail]⟩

/-- The part after the sizes. -/
theorem body_reads {E : ElemIO R} {n : Nat} {Inv : σ → Prop} {C : σ → List (List (Tok R)) → σ → Prop} {item : Nat → σ → IS → M (Bool × σ × IS)} (h : LoopReads E Inv C (itemsLoop n item n 0)) :
    (∀ x tss extra x' b b', Inv x → C x tss x' → (extra = true → tss ≠ []) → Scan E (list tss extra) b b' → readBody n item x ⟨b, true⟩ = .ok (x', ⟨b', true⟩)) ∧
    (∀ x s, Inv x → ∃ x' s', readBody n item x s = .ok (x', s') ∧ Inv x' ∧
      (s'.ok = true → s.ok = true ∧ ∃ tss extra, C x tss x' ∧ (extra = true → tss ≠ []) ∧ Scan E (list tss extra) s.buf s'.buf)) := by
  refine ⟨?_, ?_⟩
  · intro x tss extra x' b b' hx hC he hs
    obtain ⟨b1, h1, h2⟩ := hs
    obtain ⟨b2, e2, h2⟩ := h.accept x tss x' extra b1 b' hx hC he h2
    simp only [readBody, differs_eq h1, Bool.false_eq_true, if_false, if_true, e2, bind_ok, differs_eq h2]
  · intro x s hx
    simp only [readBody]
    rcases differs_cases '(' s with ⟨d1, d2⟩ | ⟨d1, d2, d3, d4⟩ | ⟨d1, d2, -⟩
    · exact ⟨x, (s.differs '(').2, by simp [d1, d2], hx, by simp [d2]⟩
    · obtain ⟨x', s', e', h1, h2⟩ := h.total x (s.differs '(').2 hx
      rcases differs_cases ')' s' with ⟨g1, g2⟩ | ⟨g1, g2, g3, g4⟩ | ⟨g1, g2, -⟩
      · refine ⟨x', (s'.differs ')').2, ?_, h1, by simp [g2]⟩
        simp [d2, d3, e', g1]
      · refine ⟨x', (s'.differs ')').2, ?_, h1, fun _ => ⟨d1, ?_⟩⟩
        · simp [d2, d3, e', g2]
        · obtain ⟨tss, extra, c1, c2, c3⟩ := (h2 g1).2 _ g4
          exact ⟨tss, extra, c1, c2, _, d4, c3⟩
      · refine ⟨x', (s'.differs ')').2.fail, ?_, h1, by simp [IS.fail]⟩
        simp [d2, d3, e', g2]
    · exact ⟨x, (s.differs '(').2.fail, by simp [d2], hx, by simp [IS.fail]⟩

/-- One element: stored where `put` puts it. -/
theorem readInto_reads {E : ElemIO R} {n : Nat} {Inv : σ → Prop} {put : Nat → R → σ → M σ} (hp : ∀ i a x, i < n → Inv x → ∃ y, put i a x = .ok y ∧ Inv y) :
    Reads E n Inv (fun i x ts x' => ∃ a, ts = [.elem a] ∧ put i a x = .ok x') (readInto E put) := by
  refine ⟨?_, ?_⟩
  · rintro i x ts x' b b' hi hx ⟨a, rfl, e⟩ hs
    obtain ⟨b1, h1, h2⟩ := hs
    simp only [Scan] at h2
    subst h2
    simp only [readInto, IS.extract, if_true, h1, e, bind_ok]
  · intro i x s hi hx
    obtain ⟨b, ok⟩ := s
    cases ok with
    | false => exact ⟨false, x, ⟨b, false⟩, by simp [readInto, IS.extract], hx, by simp⟩
    | true =>
      cases h : E.read b with
      | none => exact ⟨false, x, ⟨b, false⟩, by simp [readInto, IS.extract, h, IS.fail], hx, by simp⟩
      | some p =>
        obtain ⟨y, e, hy⟩ := hp i p.1 x hi hx
        exact ⟨false, y, ⟨p.2, true⟩, by simp [readInto, IS.extract, h, e], hy, fun _ => ⟨rfl, rfl, [.elem p.1], ⟨p.1, rfl, e⟩, p.2, h, rfl⟩⟩

end Ublas.IO
