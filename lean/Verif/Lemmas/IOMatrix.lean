import Verif.Lemmas.IO
import Verif.Lemmas.Operation
/-! # Reading matrices -/
namespace Ublas.IO
variable {σ R : Type}

/-- `p` comes before `q` in row-by-row order. -/
def Before (p q : Nat × Nat) : Prop := p.1 < q.1 ∨ (p.1 = q.1 ∧ p.2 < q.2)

/-- Reading one element of an `r` x `c` matrix. -/
structure ElemSpec (r c : Nat) (Rep : σ → (Nat × Nat → R) → Prop) (Good : (Nat × Nat → R) → Prop) (Te : Nat → Nat → σ → R → σ → Prop) : Prop where
  step : ∀ x w i j a x', Rep x w → i < r → j < c → Te i j x a x' → ∃ w', Rep x' w' ∧ w' (i, j) = a ∧ ∀ p, Before p (i, j) → w' p = w p
  exist : ∀ f x w i j, Good f → Rep x w → i < r → j < c → (∀ p, p.1 < r → p.2 < c → Before p (i, j) → w p = f p) → ∃ x', Te i j x (f (i, j)) x'

def Tel (Te : Nat → Nat → σ → R → σ → Prop) (i j : Nat) (x : σ) (ts : List (Tok R)) (x' : σ) : Prop := ∃ a, ts = [.elem a] ∧ Te i j x a x'
def Trow (Te : Nat → Nat → σ → R → σ → Prop) (c i : Nat) (x : σ) (ts : List (Tok R)) (x' : σ) : Prop :=
  ∃ tss extra, ts = list tss extra ∧ Chain (Tel Te i) c 0 x tss x' ∧ (extra = true → tss ≠ [])

/-- The tokens of a row from column `j` on. -/
def rowToks (f : Nat × Nat → R) (i j k : Nat) : List (List (Tok R)) := (List.range' j k).map fun q => [.elem (f (i, q))]
/-- The tokens of the rows from row `i` on. -/
def rowsToks (f : Nat × Nat → R) (c i k : Nat) (extras : List Bool) : List (List (Tok R)) :=
  ((List.range' i k).zip extras).map fun p => list (rowToks f p.1 0 c) p.2

variable {r c : Nat} {Rep : σ → (Nat × Nat → R) → Prop} {Good : (Nat × Nat → R) → Prop} {Te : Nat → Nat → σ → R → σ → Prop}

theorem rowToks_congr {f g : Nat × Nat → R} {i j k : Nat} (h : ∀ q, j ≤ q → q < j + k → f (i, q) = g (i, q)) : rowToks f i j k = rowToks g i j k := by
  unfold rowToks
  refine List.map_congr_left fun q hq => ?_
  rw [List.mem_range'] at hq
  obtain ⟨m, hm, rfl⟩ := hq
  rw [h _ (by omega) (by omega)]

theorem rowToks_ne {f : Nat × Nat → R} {i j k : Nat} : rowToks f i j k = [] ↔ k = 0 := by
  simp [rowToks, List.map_eq_nil_iff]

theorem row_sound (S : ElemSpec r c Rep Good Te) {i : Nat} (hi : i < r) : ∀ (k j : Nat) (x : σ) (tss : List (List (Tok R))) (x' : σ) (w : Nat × Nat → R), j + k = c → Rep x w →
    Chain (Tel Te i) k j x tss x' → ∃ w', Rep x' w' ∧ tss = rowToks w' i j k ∧ ∀ p, Before p (i, j) → w' p = w p
  | 0, j, x, tss, x', w, _, hx, h => by
    obtain ⟨rfl, rfl⟩ := h
    exact ⟨w, hx, rfl, fun _ _ => rfl⟩
  | k + 1, j, x, tss, x', w, hj, hx, h => by
    obtain ⟨ts, u, y, rfl, ⟨a, rfl, ha⟩, h⟩ := h
    obtain ⟨w1, r1, e1, f1⟩ := S.step x w i j a y hx hi (by omega) ha
    obtain ⟨w', r2, rfl, f2⟩ := row_sound S hi k (j + 1) y u x' w1 (by omega) r1 h
    refine ⟨w', r2, ?_, fun p hp => ?_⟩
    · simp only [rowToks, List.range'_succ, List.map_cons]
      rw [f2 (i, j) (Or.inr ⟨rfl, by simp⟩), e1]
    · rw [f2 p, f1 p hp]
      rcases hp with hp | ⟨hp, hq⟩
      · exact Or.inl hp
      · exact Or.inr ⟨hp, by simp only at hq ⊢; omega⟩

theorem row_exist (S : ElemSpec r c Rep Good Te) {f : Nat × Nat → R} (hf : Good f) {i : Nat} (hi : i < r) : ∀ (k j : Nat) (x : σ) (w : Nat × Nat → R), j + k = c → Rep x w →
    (∀ p, p.1 < r → p.2 < c → Before p (i, j) → w p = f p) →
    ∃ x' w', Chain (Tel Te i) k j x (rowToks f i j k) x' ∧ Rep x' w' ∧ ∀ p, p.1 < r → p.2 < c → Before p (i, j + k) → w' p = f p
  | 0, j, x, w, _, hx, hw => ⟨x, w, ⟨rfl, rfl⟩, hx, hw⟩
  | k + 1, j, x, w, hj, hx, hw => by
    obtain ⟨y, hy⟩ := S.exist f x w i j hf hx hi (by omega) hw
    obtain ⟨w1, r1, e1, f1⟩ := S.step x w i j _ y hx hi (by omega) hy
    have hw1 : ∀ p, p.1 < r → p.2 < c → Before p (i, j + 1) → w1 p = f p := by
      intro p h1 h2 hp
      by_cases hb : Before p (i, j)
      · rw [f1 p hb, hw p h1 h2 hb]
      · have : p = (i, j) := by
          obtain ⟨a, b⟩ := p
          simp only [Before, not_or, not_and] at hp hb
          have ea : a = i := by omega
          have := hb.2 ea
          ext <;> simp only <;> omega
        rw [this, e1]
    obtain ⟨x', w', h1, h2, h3⟩ := row_exist S hf hi k (j + 1) y w1 (by omega) r1 hw1
    refine ⟨x', w', ⟨[.elem (f (i, j))], _, y, ?_, ⟨_, rfl, hy⟩, h1⟩, h2, ?_⟩
    · simp only [rowToks, List.range'_succ, List.map_cons]
    · intro p a b hp
      exact h3 p a b (by rw [show j + 1 + k = j + (k + 1) by omega]; exact hp)

theorem rows_sound (S : ElemSpec r c Rep Good Te) : ∀ (k i : Nat) (x : σ) (tss : List (List (Tok R))) (x' : σ) (w : Nat × Nat → R), i + k = r → Rep x w →
    Chain (Trow Te c) k i x tss x' → ∃ w' extras, Rep x' w' ∧ extras.length = k ∧ (∀ e ∈ extras, e = true → c ≠ 0) ∧ tss = rowsToks w' c i k extras ∧ ∀ p, p.1 < i → w' p = w p
  | 0, i, x, tss, x', w, _, hx, h => by
    obtain ⟨rfl, rfl⟩ := h
    exact ⟨w, [], hx, rfl, by simp, rfl, fun _ _ => rfl⟩
  | k + 1, i, x, tss, x', w, hi, hx, h => by
    obtain ⟨ts, u, y, rfl, ⟨tss, extra, rfl, hc, he⟩, h⟩ := h
    obtain ⟨w1, r1, rfl, f1⟩ := row_sound S (by omega) c 0 x tss y w (by omega) hx hc
    obtain ⟨w', extras, r2, h3, h4, rfl, f2⟩ := rows_sound S k (i + 1) y u x' w1 (by omega) r1 h
    refine ⟨w', extra :: extras, r2, by simp [h3], ?_, ?_, ?_⟩
    · intro e hm
      rw [List.mem_cons] at hm
      rcases hm with rfl | hm
      · intro h hc0
        exact he h (rowToks_ne.2 hc0)
      · exact h4 e hm
    · simp only [rowsToks, List.range'_succ, List.zip_cons_cons, List.map_cons]
      congr 2
      exact rowToks_congr fun q _ _ => (f2 (i, q) (by simp)).symm
    · intro p hp
      rw [f2 p (by omega), f1 p (Or.inl hp)]

theorem rows_exist (S : ElemSpec r c Rep Good Te) {f : Nat × Nat → R} (hf : Good f) : ∀ (k i : Nat) (extras : List Bool) (x : σ) (w : Nat × Nat → R), i + k = r → Rep x w →
    extras.length = k → (∀ e ∈ extras, e = true → c ≠ 0) → (∀ p, p.1 < i → p.2 < c → w p = f p) →
    ∃ x' w', Chain (Trow Te c) k i x (rowsToks f c i k extras) x' ∧ Rep x' w' ∧ ∀ p, p.1 < i + k → p.2 < c → w' p = f p
  | 0, i, extras, x, w, _, hx, _, _, hw => ⟨x, w, ⟨by simp [rowsToks], rfl⟩, hx, hw⟩
  | k + 1, i, [], x, w, hi, hx, hl, he, hw => by simp at hl
  | k + 1, i, e :: extras, x, w, hi, hx, hl, he, hw => by
    obtain ⟨y, w1, h1, r1, f1⟩ := row_exist S hf (i := i) (by omega) c 0 x w (by omega) hx fun p a b hp => hw p (by rcases hp with hp | ⟨-, hp⟩ <;> simp_all) b
    obtain ⟨x', w', h2, r2, f2⟩ := rows_exist S hf k (i + 1) extras y w1 (by omega) r1 (by simpa using hl) (fun e h => he e (List.mem_cons_of_mem _ h)) fun p a b =>
      f1 p (by omega) b (by
        by_cases hp : p.1 = i
        · exact Or.inr ⟨hp, by simp only; omega⟩
        · exact Or.inl (by simp only; omega))
    refine ⟨x', w', ⟨_, _, y, ?_, ⟨_, e, rfl, h1, ?_⟩, h2⟩, r2, fun p a b => f2 p (by omega) b⟩
    · simp only [rowsToks, List.range'_succ, List.zip_cons_cons, List.map_cons]
    · intro h h0
      exact he e (by simp) h (rowToks_ne.1 h0)

theorem rowsToks_rowsOf (f : Nat × Nat → R) (r c : Nat) (extras : List Bool) :
    rowsToks f c 0 r extras = ((rowsOf r c f).zip extras).map fun p => list (p.1.map fun x => [.elem x]) p.2 := by
  unfold rowsToks rowsOf rowToks
  simp only [List.range_eq_range', List.zip_map_left, List.map_map]
  refine List.map_congr_left fun p _ => ?_
  simp [Prod.map, Function.comp_def]

theorem extract_failed {α : Type} {read : List Char → Option (α × List Char)} {b : List Char} : IS.extract read ⟨b, false⟩ = (none, ⟨b, false⟩) := by simp [IS.extract]

/-! ## Sizes -/

theorem extract_ok {α : Type} {read : List Char → Option (α × List Char)} {b b' : List Char} {a : α} (h : read b = some (a, b')) : IS.extract read ⟨b, true⟩ = (some a, ⟨b', true⟩) := by
  simp [IS.extract, h]

theorem extract_cases {α : Type} (read : List Char → Option (α × List Char)) (s : IS) :
    ((s.extract read).1 = none ∧ (s.extract read).2.ok = false) ∨ (∃ a, s.ok = true ∧ (s.extract read).1 = some a ∧ (s.extract read).2.ok = true ∧ read s.buf = some (a, (s.extract read).2.buf)) := by
  obtain ⟨b, ok⟩ := s
  cases ok with
  | false => simp [IS.extract]
  | true => cases h : read b with
    | none => simp [IS.extract, h, IS.fail]
    | some p => simp [IS.extract, h]

theorem IS.eta_ok {s : IS} (h : s.ok = true) : s = ⟨s.buf, true⟩ := by cases s; simp_all
theorem IS.eta_failed {s : IS} (h : s.ok = false) : s = ⟨s.buf, false⟩ := by cases s; simp_all

theorem readSizes_accept {E : ElemIO R} {sq : Bool} {n m : Nat} {b b' : List Char} (hs : Scan E [.ch '[', .size n, .ch ',', .size m, .ch ']'] b b') (hq : sq = true → n = m) :
    readSizes sq ⟨b, true⟩ = (some (n, m), ⟨b', true⟩) := by
  obtain ⟨b1, h1, b2, h2, b3, h3, b4, h4, b5, h5, rfl⟩ := hs
  have hn : ¬ ((sq = true ∧ some m ≠ some n) ∨ (']' : Char) ≠ ']') := by
    simp only [ne_eq, not_true_eq_false, or_false, not_and, not_not]
    intro h; rw [hq h]
  simp only [readSizes, differs_eq h1, Bool.false_eq_true, if_false, extract_ok h2, differs_eq h3, extract_ok h4, IS.get, if_true, h5, if_neg hn]

theorem readSizes_only (E : ElemIO R) (sq : Bool) (s : IS) :
    ((readSizes sq s).1 = none ∧ (readSizes sq s).2.ok = false) ∨
    (∃ n m, (readSizes sq s).1 = some (n, m) ∧ (readSizes sq s).2.ok = true ∧ s.ok = true ∧ (sq = true → n = m) ∧ Scan E [.ch '[', .size n, .ch ',', .size m, .ch ']'] s.buf (readSizes sq s).2.buf) := by
  by_cases hh : (readSizes sq s).2.ok = true ∨ (readSizes sq s).1 ≠ none
  swap
  · left
    simp only [not_or, ne_eq, not_not] at hh
    exact ⟨hh.2, by simpa using hh.1⟩
  right
  revert hh
  unfold readSizes
  simp only
  rcases differs_cases '[' s with ⟨d1, d2⟩ | ⟨d1, d2, d3, d4⟩ | ⟨d1, d2, -⟩
  · rw [IS.eta_failed d2]
    simp [d1, IS.extract, differs_failed, IS.get]
  · rw [IS.eta_ok d3]
    rcases extract_cases readSize ⟨(s.differs '[').2.buf, true⟩ with ⟨e1, e2⟩ | ⟨n, -, e1, e2, e3⟩
    · rw [IS.eta_failed e2]
      simp [d2, IS.extract, differs_failed, IS.get]
    · rcases differs_cases ',' (IS.extract readSize ⟨(s.differs '[').2.buf, true⟩).2 with ⟨g1, g2⟩ | ⟨-, g2, g3, g4⟩ | ⟨-, g2, -⟩
      · rw [IS.eta_failed g2]
        simp only [d2, g1, Bool.false_eq_true, if_false, extract_failed, IS.get]
        simp
      · rcases extract_cases readSize (IS.differs ',' (IS.extract readSize ⟨(s.differs '[').2.buf, true⟩).2).2 with ⟨a1, a2⟩ | ⟨m, -, a1, a2, a3⟩
        · rw [IS.eta_failed a2]
          simp [d2, g2, IS.get]
        · have a2' := IS.eta_ok a2
          rw [a2']
          cases hb : skipWs (IS.extract readSize (IS.differs ',' (IS.extract readSize ⟨(s.differs '[').2.buf, true⟩).2).2).2.buf with
          | nil => simp [d2, g2, IS.get, hb]
          | cons ch b5 =>
            by_cases hc : (sq = true ∧ some m ≠ some n) ∨ ch ≠ ']'
            · simp only [d2, g2, IS.get, hb, e1, a1, if_true, if_pos hc, Bool.false_eq_true, if_false]
              simp
            · simp only [d2, g2, IS.get, hb, e1, a1, if_true, if_neg hc, Bool.false_eq_true, if_false]
              intro _
              simp only [not_or, not_and, not_not] at hc
              refine ⟨n, m, by simp, by simp, d1, fun h => by have := hc.1 h; simpa using this.symm, ?_⟩
              obtain ⟨-, rfl⟩ := hc
              exact ⟨_, d4, _, e3, _, g4, _, a3, b5, hb, rfl⟩
      · simp [d2, g2, IS.fail]
  · simp [d2, IS.fail]

end Ublas.IO
