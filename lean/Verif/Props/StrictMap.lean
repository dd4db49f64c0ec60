import Verif.Props.MapArray
import Verif.Model.StrictMap
/-! # C135: element references of a strict map_array -/
namespace Ublas
open MapArr Assoc
variable {α : Type}
namespace SElem

theorem create_ok (dbg : Bool) (zero : α) {m : MapArr α} {s : Nat → Option α} (h : Repr m s) (k : Nat) :
    ∃ m', create dbg zero m k = .ok (m', ⟨k, RefSpec.val zero s k, false⟩) ∧ Repr m' (RefSpec.touch zero s k) := by
  rcases h.find k with ⟨n, v, h1, h2, h3, h4⟩ | ⟨h1, h2⟩
  · have : RefSpec.touch zero s k = s := by
      funext j; simp only [RefSpec.touch]; split
      · rename_i e; subst e; simp [h4]
      · rfl
    refine ⟨m, ?_, by rw [this]; exact h⟩
    simp [create, h1, show n ≠ m.size by omega, h.value h2 h3, RefSpec.val, h4]
  · obtain ⟨m1, n, b, g1, g2, _, g3, g4⟩ := h.insert dbg zero k zero
    refine ⟨m1, ?_, g3⟩
    simp [create, h1, g1, g3.value g2 g4, RefSpec.val]

theorem destroy_dirty (dbg : Bool) {m : MapArr α} {s : Nat → Option α} (h : Repr m s) (k : Nat) (d : α) (hk : s k ≠ none) :
    ∃ m', destroy dbg m ⟨k, d, true⟩ = .ok m' ∧ Repr m' (RefSpec.put s k d) := by
  rcases h.find k with ⟨n, v, h1, h2, h3, h4⟩ | ⟨h1, h2⟩
  · obtain ⟨m2, r1, r2, _⟩ := h.assign h2 h3 d
    refine ⟨m2, ?_, r2⟩
    simp [destroy, h1, check_true (show n ≠ m.size by omega), r1]
  · exact absurd h2 hk

theorem two_ok (dbg : Bool) (zero : α) (first : Bool) {m : MapArr α} {s : Nat → Option α} (h : Repr m s) (k l : Nat) :
    ∃ m', two dbg zero first m k l = .ok (m', ⟨k, RefSpec.val zero s k, false⟩, ⟨l, RefSpec.val zero s l, false⟩) ∧
      Repr m' (RefSpec.touch zero (RefSpec.touch zero s l) k) := by
  have hv : ∀ a b, RefSpec.val zero (RefSpec.touch zero s a) b = RefSpec.val zero s b := by
    intro a b; simp only [RefSpec.val, RefSpec.touch]; split <;> simp_all
  have hc : RefSpec.touch zero (RefSpec.touch zero s k) l = RefSpec.touch zero (RefSpec.touch zero s l) k := by
    funext j; simp only [RefSpec.touch]; grind
  cases first
  · obtain ⟨m1, e1, e2⟩ := create_ok dbg zero h l
    obtain ⟨m2, e3, e4⟩ := create_ok dbg zero e2 k
    exact ⟨m2, by simp [two, e1, e3, hv], e4⟩
  · obtain ⟨m1, e1, e2⟩ := create_ok dbg zero h k
    obtain ⟨m2, e3, e4⟩ := create_ok dbg zero e2 l
    exact ⟨m2, by simp [two, e1, e3, hv], hc ▸ e4⟩

theorem endTwo_one (dbg : Bool) (first : Bool) {m : MapArr α} {s : Nat → Option α} (h : Repr m s) (k l : Nat) (d e : α) (hk : s k ≠ none) :
    ∃ m', endTwo dbg first m ⟨k, d, true⟩ ⟨l, e, false⟩ = .ok m' ∧ Repr m' (RefSpec.put s k d) := by
  obtain ⟨m', e1, e2⟩ := destroy_dirty dbg h k d hk
  refine ⟨m', ?_, e2⟩
  cases first
  · simp only [endTwo, Bool.false_eq_true, if_false, e1, bind_ok]; simp [destroy]
  · have : destroy dbg m (⟨l, e, false⟩ : SElem α) = .ok m := by simp [destroy]
    simp only [endTwo, if_true, this, bind_ok, e1]

theorem endTwo_both (dbg : Bool) (first : Bool) {m : MapArr α} {s : Nat → Option α} (h : Repr m s) (k l : Nat) (d e : α) (hk : s k ≠ none) (hl : s l ≠ none)
    (hkl : k ≠ l ∨ d = e) :
    ∃ m', endTwo dbg first m ⟨k, d, true⟩ ⟨l, e, true⟩ = .ok m' ∧ Repr m' (RefSpec.put (RefSpec.put s l e) k d) := by
  have hc : RefSpec.put (RefSpec.put s k d) l e = RefSpec.put (RefSpec.put s l e) k d := by
    funext j; simp only [RefSpec.put]; grind
  have hn : ∀ a b x, s b ≠ none → RefSpec.put s a x b ≠ none := by
    intro a b x hb; simp only [RefSpec.put]; split <;> simp_all
  cases first
  · obtain ⟨m1, e1, e2⟩ := destroy_dirty dbg h k d hk
    obtain ⟨m2, e3, e4⟩ := destroy_dirty dbg e2 l e (hn k l d hl)
    exact ⟨m2, by simp [endTwo, e1, e3], hc ▸ e4⟩
  · obtain ⟨m1, e1, e2⟩ := destroy_dirty dbg h l e hl
    obtain ⟨m2, e3, e4⟩ := destroy_dirty dbg e2 k d (hn l k e hk)
    exact ⟨m2, by simp [endTwo, e1, e3], e4⟩

theorem step_ok (dbg : Bool) (zero : α) (first : Bool) {m : MapArr α} {s : Nat → Option α} (h : Repr m s) (o : RefStmt α) (hl : RefSpec.legal s o) :
    ∃ m', step dbg zero first m o = .ok m' ∧ Repr m' (RefSpec.step zero s o) := by
  have t1 : ∀ k, RefSpec.touch zero s k k ≠ none := by intro k; simp [RefSpec.touch]
  have t2 : ∀ k l, RefSpec.touch zero (RefSpec.touch zero s l) k k ≠ none := by intro k l; simp [RefSpec.touch]
  have t3 : ∀ k l, RefSpec.touch zero (RefSpec.touch zero s l) k l ≠ none := by intro k l; simp only [RefSpec.touch]; grind
  have p1 : ∀ k x, RefSpec.put (RefSpec.touch zero s k) k x = RefSpec.put s k x := by intro k x; funext j; simp only [RefSpec.put, RefSpec.touch]; grind
  have p2 : ∀ k l x, RefSpec.put (RefSpec.touch zero (RefSpec.touch zero s l) k) k x = RefSpec.put (RefSpec.touch zero s l) k x := by
    intro k l x; funext j; simp only [RefSpec.put, RefSpec.touch]; grind
  have p3 : ∀ k l x y, RefSpec.put (RefSpec.put (RefSpec.touch zero (RefSpec.touch zero s l) k) l y) k x = RefSpec.put (RefSpec.put s l y) k x := by
    intro k l x y; funext j; simp only [RefSpec.put, RefSpec.touch]; grind
  cases o with
  | read k =>
    obtain ⟨m1, e1, e2⟩ := create_ok dbg zero h k
    exact ⟨m1, by simp [step, e1, destroy], e2⟩
  | assign k d =>
    obtain ⟨m1, e1, e2⟩ := create_ok dbg zero h k
    obtain ⟨m2, e3, e4⟩ := destroy_dirty dbg e2 k d (t1 k)
    exact ⟨m2, by simp [step, e1, set, e3], by have := e4; rw [p1 k _] at this; exact this⟩
  | update k g d =>
    obtain ⟨m1, e1, e2⟩ := create_ok dbg zero h k
    obtain ⟨m2, e3, e4⟩ := destroy_dirty dbg e2 k (g (RefSpec.val zero s k) d) (t1 k)
    exact ⟨m2, by simp [step, e1, SElem.apply, e3], by have := e4; rw [p1 k _] at this; exact this⟩
  | copy k l =>
    obtain ⟨m1, e1, e2⟩ := two_ok dbg zero first h k l
    obtain ⟨m2, e3, e4⟩ := endTwo_one dbg first e2 k l (RefSpec.val zero s l) (RefSpec.val zero s l) (t2 k l)
    exact ⟨m2, by simp [step, e1, copyFrom, e3], by have := e4; rw [p2 k l _] at this; exact this⟩
  | combine k l g =>
    obtain ⟨m1, e1, e2⟩ := two_ok dbg zero first h k l
    obtain ⟨m2, e3, e4⟩ := endTwo_one dbg first e2 k l (g (RefSpec.val zero s k) (RefSpec.val zero s l)) (RefSpec.val zero s l) (t2 k l)
    exact ⟨m2, by simp [step, e1, SElem.apply, e3], by have := e4; rw [p2 k l _] at this; exact this⟩
  | exchange k l =>
    obtain ⟨m1, e1, e2⟩ := two_ok dbg zero first h k l
    obtain ⟨m2, e3, e4⟩ := destroy_dirty dbg e2 l (RefSpec.val zero s k) (t3 k l)
    obtain ⟨m3, e5, e6⟩ := endTwo_one dbg first e4 k l (RefSpec.val zero s l) (RefSpec.val zero s l) (by
      simp only [RefSpec.put]; split
      · simp
      · exact t2 k l)
    refine ⟨m3, by simp [step, e1, swapWith, e3, e5], ?_⟩
    have : RefSpec.put (RefSpec.put (RefSpec.touch zero (RefSpec.touch zero s l) k) l (RefSpec.val zero s k)) k (RefSpec.val zero s l) = RefSpec.step zero s (.exchange k l) := by
      rw [p3]; funext j; simp only [RefSpec.step, RefSpec.put]; grind
    rw [← this]; exact e6
  | chain k l d =>
    obtain ⟨m1, e1, e2⟩ := two_ok dbg zero first h k l
    obtain ⟨m2, e3, e4⟩ := endTwo_both dbg first e2 k l d d (t2 k l) (t3 k l) (.inr rfl)
    exact ⟨m2, by simp [step, e1, copyFrom, set, e3], by have := e4; rw [p3 k l _ _] at this; exact this⟩
  | nest k l g d =>
    have hl : k ≠ l := hl
    obtain ⟨m1, e1, e2⟩ := two_ok dbg zero first h k l
    obtain ⟨m2, e3, e4⟩ := endTwo_both dbg first e2 k l (g (RefSpec.val zero s k) d) d (t2 k l) (t3 k l) (.inl hl)
    refine ⟨m2, by simp [step, e1, SElem.apply, set, e3], ?_⟩
    have : RefSpec.val zero (RefSpec.put s l d) k = RefSpec.val zero s k := by simp [RefSpec.val, RefSpec.put, hl]
    simp only [RefSpec.step, this]
    exact p3 k l _ _ ▸ e4
  | plain o => exact step_repr dbg zero m s o h hl

theorem run_ok (dbg : Bool) (zero : α) (os : List (RefStmt α × Bool)) : ∀ (m : MapArr α) (s : Nat → Option α), Repr m s →
    RefSpec.legalRun zero s (os.map (·.1)) → ∃ m', run dbg zero m os = .ok m' ∧ Repr m' (RefSpec.run zero s (os.map (·.1))) := by
  induction os with
  | nil => intro m s h _; exact ⟨m, rfl, h⟩
  | cons o os ih =>
    intro m s h hl
    obtain ⟨m1, e1, h1⟩ := step_ok dbg zero o.2 h o.1 hl.1
    obtain ⟨m2, e2, h2⟩ := ih m1 _ h1 hl.2
    exact ⟨m2, by simp [run, e1, e2], h2⟩

end SElem

/-- **C135**.  With BOOST_UBLAS_STRICT_MAP_ARRAY, any program of statements that read, assign, update, copy, combine or exchange elements through `m [k]` (also the same element twice,
also elements that are not yet there), or use any other member, leaves the map a map of plain references would be, whatever the order of evaluation, without a fault, in either build
mode.  Not in it: a statement that uses, through a second reference, an element it has just changed, which `C135_delayed_write_refuted` denies. -/
theorem C135_strict_references_partial (dbg : Bool) (zero : α) (os : List (RefStmt α × Bool)) (hl : RefSpec.legalRun zero (fun _ => none) (os.map (·.1))) :
    ∃ m, SElem.run dbg zero MapArr.empty os = .ok m ∧ MapSpec.Observes m (RefSpec.run zero (fun _ => none) (os.map (·.1))) := by
  obtain ⟨m, h1, h2⟩ := SElem.run_ok dbg zero os _ _ MapArr.repr_empty hl
  exact ⟨m, h1, h2.observes⟩

/-- **C135** (refuted part).  The new value reaches the map only at the end of the statement: `m [0] = 5; m [0] += (m [0] = 3)` does not leave 6, as plain references do (since C++17
the right-hand side of `+=` is evaluated first), with either order. -/
theorem C135_delayed_write_refuted : ∀ first : Bool,
    ¬ ∀ (m : MapArr Int) (s : Nat → Option Int) (o : RefStmt Int), MapSpec.Observes m s → RefSpec.legalC s o →
      ∃ m', SElem.step false 0 first m o = .ok m' ∧ MapSpec.Observes m' (RefSpec.step 0 s o) := by
  intro first h
  obtain ⟨m, h1, h2⟩ := SElem.run_ok false (0 : Int) [(.assign 0 5, first)] _ _ MapArr.repr_empty ⟨trivial, trivial⟩
  have h1 : (⟨2, 1, [(0, 5), (0, 0)]⟩ : MapArr Int) = m := by cases first <;> (injection h1)
  subst h1
  obtain ⟨m', e1, e2⟩ := h _ _ (.nest 0 0 (· + ·) 3) h2.observes trivial
  have e2 := e2.1 0
  cases first
  · have e1 : (⟨2, 1, [(0, 3), (0, 0)]⟩ : MapArr Int) = m' := by injection e1
    subst e1
    exact absurd e2 (by decide)
  · have e1 : (⟨2, 1, [(0, 8), (0, 0)]⟩ : MapArr Int) = m' := by injection e1
    subst e1
    exact absurd e2 (by decide)

/-- **C135** (example).  A legal program with a non-trivial outcome. -/
theorem C135_demo :
    let os : List (RefStmt Int) := [.assign 3 7, .exchange 3 1, .combine 1 1 (· + ·), .nest 2 0 (· + ·) 5, .plain (.eraseKey 3), .read 4, .copy 5 1]
    let e := RefSpec.run 0 (fun _ => none) os
    RefSpec.legalRun 0 (fun _ => none) os ∧ (List.range 7).map e = [some 5, some 14, some 5, none, some 0, some 14, none] :=
  ⟨⟨trivial, trivial, trivial, (by decide : (2 : Nat) ≠ 0), trivial, trivial, trivial, trivial⟩, by decide⟩

end Ublas
