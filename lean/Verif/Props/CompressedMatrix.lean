import Verif.Lemmas.CompressedMatrix
import Verif.Props.Mapped
/-! # C24, C27 (compressed_matrix), C28 (compressed_matrix), C64: compressed_matrix -/
namespace Ublas
open Search Assoc SparseSpec
variable {α : Type}
namespace CMat

theorem key_eq (o : Orient) (i r j c : Nat) : o.indexM i j * o.sizem r c + o.indexm i j = o.elementRaw i r j c := by
  cases o
  · rfl
  · exact Nat.add_comm _ _

theorem major_lt (o : Orient) {i r j c : Nat} (hi : i < r) (hj : j < c) : o.indexM i j < o.sizeM r c := by cases o <;> assumption
theorem minor_lt (o : Orient) {i r j c : Nat} (hi : i < r) (hj : j < c) : o.indexm i j < o.sizem r c := by cases o <;> assumption

def toMat (s : CMatS α) : Mat α := ⟨s.rows, s.cols, s.val⟩

abbrev flat (o : Orient) (s : CMatS α) : Nat → Option α := MappedMat.flat o (toMat s)

def Inv (o : Orient) (IB : Nat) (v : CMat α) (s : CMatS α) : Prop :=
  ∃ E, Core o IB v E (flat o s) ∧ v.size1 = s.rows ∧ v.size2 = s.cols ∧ v.filled1 = s.opened + 1 ∧
    ∀ i j, ¬ (i < s.rows ∧ j < s.cols) → s.val (i, j) = none

theorem flat_at (o : Orient) (s : CMatS α) {i j : Nat} (hi : i < s.rows) (hj : j < s.cols) :
    flat o s (o.indexM i j * o.sizem s.rows s.cols + o.indexm i j) = s.val (i, j) := by
  rw [key_eq]; exact MappedMat.flat_element o (toMat s) hi hj

theorem flat_upd (o : Orient) (s : CMatS α) {i j : Nat} (hi : i < s.rows) (hj : j < s.cols) (x : Option α) (op : Nat) :
    flat o { s with val := fun p => if p = (i, j) then x else s.val p, opened := op } =
      upd (flat o s) (o.indexM i j * o.sizem s.rows s.cols + o.indexm i j) x := by
  rw [key_eq]; exact MappedMat.flat_upd o (toMat s) hi hj x

theorem before_iff (o : Orient) {r c i j i' j' : Nat} (hi : i < r) (hj : j < c) (hi' : i' < r) (hj' : j' < c) :
    Before o (i, j) (i', j') ↔ o.indexM i j * o.sizem r c + o.indexm i j < o.indexM i' j' * o.sizem r c + o.indexm i' j' := by
  have m1 := minor_lt o hi hj
  have m2 := minor_lt o hi' hj'
  unfold Before
  simp only
  generalize o.indexM i j = a at *
  generalize o.indexM i' j' = a' at *
  generalize o.indexm i j = b at *
  generalize o.indexm i' j' = b' at *
  generalize o.sizem r c = sm at *
  constructor
  · rintro (h | ⟨h, h'⟩)
    · have : (a + 1) * sm ≤ a' * sm := Nat.mul_le_mul_right _ h
      rw [mul_succ'] at this; omega
    · subst h; omega
  · intro h
    by_cases e : a < a'
    · exact Or.inl e
    · right
      by_cases e' : a = a'
      · subst e'; exact ⟨rfl, by omega⟩
      · have : (a' + 1) * sm ≤ a * sm := Nat.mul_le_mul_right _ (by omega)
        rw [mul_succ'] at this; omega

theorem key_inj (o : Orient) {r c i j i' j' : Nat} (hi : i < r) (hj : j < c) (hi' : i' < r) (hj' : j' < c)
    (h : o.indexM i j * o.sizem r c + o.indexm i j = o.indexM i' j' * o.sizem r c + o.indexm i' j') : (i, j) = (i', j') := by
  rw [key_eq, key_eq] at h
  obtain ⟨a, b⟩ := elementRaw_inj o hi hj hi' hj' h
  rw [a, b]

theorem isLast_unique {o : Orient} {val : Nat × Nat → Option α} {p q : Nat × Nat} (hp : IsLastM o val p) (hq : IsLastM o val q) : p = q := by
  rcases hp.2 q hq.1 with e | e
  · exact e.symm
  rcases hq.2 p hp.1 with e' | e'
  · exact e'
  unfold Before at e e'; omega

theorem openLast_eq {o : Orient} {val : Nat × Nat → Option α} {p : Nat × Nat} (hp : IsLastM o val p) (d : Nat) :
    openLast o val d = o.indexM p.1 p.2 + 1 := by
  have hx : ∃ p, IsLastM o val p := ⟨p, hp⟩
  unfold openLast
  rw [dif_pos hx, isLast_unique hx.choose_spec hp]

/-- The last entry of the arrays is the last stored element in storage order. -/
theorem Inv.last {o : Orient} {IB : Nat} {v : CMat α} {s : CMatS α} {E} (h : Core o IB v E (flat o s)) (h1 : v.size1 = s.rows) (h2 : v.size2 = s.cols)
    (h4 : ∀ i j, ¬ (i < s.rows ∧ j < s.cols) → s.val (i, j) = none) {L : Nat} {w : α} (hL : E.getLast? = some (L, w)) :
    ∃ i j, i < s.rows ∧ j < s.cols ∧ L = o.indexM i j * o.sizem s.rows s.cols + o.indexm i j ∧ IsLastM o s.val (i, j) ∧
      openLast o s.val s.opened = L / o.sizem s.rows s.cols + 1 := by
  obtain ⟨a, b, _⟩ := h.rep.dropLast hL
  have hlt := h.some_lt (k := L) (by rw [b]; simp)
  rw [h1, h2] at hlt
  obtain ⟨q1, q2, q3⟩ := elementRaw_index o hlt
  have hk : L = o.indexM (o.indexI L s.rows s.cols) (o.indexJ L s.rows s.cols) * o.sizem s.rows s.cols +
      o.indexm (o.indexI L s.rows s.cols) (o.indexJ L s.rows s.cols) := by rw [key_eq, q3]
  generalize o.indexI L s.rows s.cols = i at *
  generalize o.indexJ L s.rows s.cols = j at *
  have hlast : IsLastM o s.val (i, j) := by
    refine ⟨by rw [← flat_at o s q1 q2, ← hk, b]; simp, ?_⟩
    rintro ⟨i', j'⟩ hq
    have hr : i' < s.rows ∧ j' < s.cols := Classical.byContradiction fun hc => hq (h4 i' j' hc)
    rw [← flat_at o s hr.1 hr.2] at hq
    have := a _ hq
    rw [before_iff o hr.1 hr.2 q1 q2, ← hk]
    rcases Nat.lt_or_ge (o.indexM i' j' * o.sizem s.rows s.cols + o.indexm i' j') L with c | c
    · exact Or.inr c
    · exact Or.inl (key_inj o hr.1 hr.2 q1 q2 (by omega))
  refine ⟨i, j, q1, q2, hk, hlast, ?_⟩
  rw [openLast_eq hlast, hk, key_div (minor_lt o q1 q2)]

theorem step_inv (dbg : Bool) (o : Orient) (IB : Nat) (zero : α) (junk : Junk α) (v : CMat α) (s : CMatS α) (op : CMOp α)
    (h : Inv o IB v s) (hl : cmlegal o s op) :
    ∃ v', CMat.step dbg o IB zero junk v op = .ok v' ∧ Inv o IB v' (cmstep o zero s op) := by
  obtain ⟨E, h, h1, h2, h3, h4⟩ := h
  have hrange : ∀ i j x, i < s.rows → j < s.cols → ∀ a b, ¬ (a < s.rows ∧ b < s.cols) →
      (if (a, b) = (i, j) then x else s.val (a, b)) = none := by
    intro i j x hi hj a b hab
    rw [if_neg (by simp only [Prod.mk.injEq]; intro e; omega)]; exact h4 a b hab
  have hflat0 : ∀ r c op, flat o (⟨r, c, fun _ => none, op⟩ : CMatS α) = fun _ => none := by
    intro r c op; funext k; simp only [flat, MappedMat.flat, toMat]; exact ite_self _
  cases op with
  | modify i j f =>
    obtain ⟨hi, hj⟩ := hl
    have hm : o.indexm i j < o.sizem v.size1 v.size2 := by rw [h1, h2]; exact minor_lt o hi hj
    have hM : o.indexM i j < o.sizeM v.size1 v.size2 := by rw [h1, h2]; exact major_lt o hi hj
    have hat := flat_at o s hi hj
    have fin : ∀ (v1 : CMat α) (n : Nat) (E1) (w : α) (s1 : Nat → Option α), Core o IB v1 E1 s1 → v1.size1 = s.rows → v1.size2 = s.cols → n < v1.filled2 →
        E1[n]? = some (o.indexM i j * o.sizem s.rows s.cols + o.indexm i j, w) →
        v1.filled1 = (if s.val (i, j) = none then max s.opened (o.indexM i j + 1) else s.opened) + 1 →
        s1 = upd (flat o s) (o.indexM i j * o.sizem s.rows s.cols + o.indexm i j) (some w) → w = (s.val (i, j)).getD zero →
        ∃ v', (do let x ← rd dbg v1.val n
                  let val ← wr dbg v1.val n (f x)
                  Except.ok { v1 with val := val } : M (CMat α)) = .ok v' ∧ Inv o IB v' (cmstep o zero s (.modify i j f)) := by
      intro v1 n E1 w s1 hr e1 e2 hn he hf hs1 hw
      have hv := hr.valAt hn; rw [he] at hv
      have hlen : n < v1.val.length := by rw [hr.valLen]; have := hr.fill; omega
      refine ⟨{ v1 with val := v1.val.set n (f w) }, by simp only [rd_eq_ok.2 hv, Option.map_some, bind_ok, wr_ok hlen], E1.set n (o.indexM i j * o.sizem s.rows s.cols + o.indexm i j, f w), ?_, e1, e2, ?_, hrange i j _ hi hj⟩
      · have := hr.setAt he (f w)
        have e : flat o (cmstep o zero s (.modify i j f)) = upd s1 (o.indexM i j * o.sizem s.rows s.cols + o.indexm i j) (some (f w)) := by
          simp only [cmstep]; rw [flat_upd o s hi hj, hs1, hw]
          funext k; simp only [upd]; split <;> rfl
        rw [e]; exact this
      · simp only [cmstep]; exact hf
    simp only [CMat.step, CMat.modify]
    rcases h.slot hm with ⟨n, w, q1, q2, q3, q4, q5⟩ | ⟨q1, q2⟩
    · simp only [q1, bind_ok]
      rw [h1, h2] at q3 q4
      rw [hat] at q4
      refine fin v n E w _ h h1 h2 q2 q3 ?_ ?_ (by rw [q4]; rfl)
      · rw [if_neg (by rw [q4]; simp)]; exact h3
      · funext k; simp only [upd]; split
        · rename_i e; rw [e, hat, q4]
        · rfl
    · obtain ⟨v1, n, E1, g1, g2, g3, g4, g5, g6, g7⟩ := h.insert dbg zero junk zero hM hm q2
      simp only [q1, bind_ok, g1]
      rw [h1, h2] at g2 g7 q2
      rw [hat] at q2
      refine fin v1 n E1 zero _ g2 (by rw [g3, h1]) (by rw [g4, h2]) g6 g7 ?_ rfl (by rw [q2]; rfl)
      rw [if_pos q2, g5, h3]; omega
  | insert i j t =>
    obtain ⟨hi, hj, hn⟩ := hl
    have hm : o.indexm i j < o.sizem v.size1 v.size2 := by rw [h1, h2]; exact minor_lt o hi hj
    have hM : o.indexM i j < o.sizeM v.size1 v.size2 := by rw [h1, h2]; exact major_lt o hi hj
    obtain ⟨v1, n, E1, g1, g2, g3, g4, g5, g6, g7⟩ := h.insert dbg zero junk t hM hm (by rw [h1, h2, flat_at o s hi hj]; exact hn)
    refine ⟨v1, by simp only [CMat.step, g1, bind_ok], E1, ?_, by rw [g3, h1]; rfl, by rw [g4, h2]; rfl, ?_, hrange i j _ hi hj⟩
    · simp only [cmstep]; rw [flat_upd o s hi hj]
      rw [h1, h2] at g2; exact g2
    · simp only [cmstep]; rw [g5, h3]; omega
  | erase i j =>
    obtain ⟨hi, hj⟩ := hl
    have hm : o.indexm i j < o.sizem v.size1 v.size2 := by rw [h1, h2]; exact minor_lt o hi hj
    obtain ⟨v1, E1, g1, g2, g3, g4, g5, g6⟩ := h.erase dbg hm
    rw [h1, h2] at g2 g5 g6
    rw [flat_at o s hi hj] at g5 g6
    refine ⟨v1, g1, E1, ?_, by rw [g3, h1]; rfl, by rw [g4, h2]; rfl, ?_, hrange i j _ hi hj⟩
    · simp only [cmstep]; rw [flat_upd o s hi hj]; exact g2
    · simp only [cmstep]
      by_cases c : s.val (i, j) = none
      · rw [if_pos c, g5 c, h3]
      · rw [if_neg c]
        obtain ⟨L, w, q1, q2⟩ := g6 c
        obtain ⟨_, _, _, _, _, _, q3⟩ := Inv.last h h1 h2 h4 q1
        rw [q2, q3]
  | clear =>
    have hr := core_fresh o IB v.size1 v.size2 v.cap v.idx1 v.idx2 v.val h.idx1Len h.idx2Len h.valLen
    refine ⟨⟨v.size1, v.size2, v.cap, 1, 0, v.idx1.set 0 (0 + IB), v.idx2, v.val⟩, ?_, [], ?_, h1, h2, rfl, fun _ _ _ => rfl⟩
    · simp only [CMat.step, CMat.clear, wr_ok (show 0 < v.idx1.length by rw [h.idx1Len]; omega), bind_ok]
      rw [hr.invariants dbg, bind_ok]
    · simp only [cmstep]; rw [hflat0]; exact hr
  | resize r c =>
    have hr := core_fresh o IB r c (restrictCapacity r c v.cap) (resizeRaw junk.1 v.idx1 (o.sizeM r c + 1)) (resizeRaw junk.1 v.idx2 (restrictCapacity r c v.cap))
      (resizeRaw junk.2 v.val (restrictCapacity r c v.cap)) (CVec.length_resizeRaw _ _ _) (CVec.length_resizeRaw _ _ _) (CVec.length_resizeRaw _ _ _)
    refine ⟨⟨r, c, restrictCapacity r c v.cap, 1, 0, (resizeRaw junk.1 v.idx1 (o.sizeM r c + 1)).set 0 (0 + IB),
      resizeRaw junk.1 v.idx2 (restrictCapacity r c v.cap), resizeRaw junk.2 v.val (restrictCapacity r c v.cap)⟩, ?_, [], ?_, rfl, rfl, rfl, fun _ _ _ => rfl⟩
    rotate_left
    · simp only [cmstep]; rw [hflat0]; exact hr
    · simp only [CMat.step, CMat.resize, check_True, bind_ok,
        wr_ok (show 0 < (resizeRaw junk.1 v.idx1 (o.sizeM r c + 1)).length by rw [CVec.length_resizeRaw]; omega)]
      rw [hr.invariants dbg, bind_ok]
  | reserve n p =>
    cases p with
    | true =>
      have hE : v.filled2 ≤ n := by
        rw [← h.len]
        refine h.rep.length_le fun L hL hm => ?_
        have := hl rfl (L.map (fun k => (o.indexI k s.rows s.cols, o.indexJ k s.rows s.cols))) (by
          refine List.Nodup.map_on ?_ hL
          intro a ha b hb e
          have qa := (elementRaw_index o (by have := h.some_lt (hm a ha); rwa [h1, h2] at this : a < s.rows * s.cols)).2.2
          have qb := (elementRaw_index o (by have := h.some_lt (hm b hb); rwa [h1, h2] at this : b < s.rows * s.cols)).2.2
          simp only [Prod.mk.injEq] at e
          rw [e.1, e.2] at qa; omega) (by
          intro p hp
          obtain ⟨k, hk, rfl⟩ := List.mem_map.1 hp
          have hlt : k < s.rows * s.cols := by have := h.some_lt (hm k hk); rwa [h1, h2] at this
          have := hm k hk
          rwa [show flat o s k = s.val (o.indexI k s.rows s.cols, o.indexJ k s.rows s.cols) from if_pos hlt] at this)
        simpa using this
      obtain ⟨v1, g1, g2, g3, g4, g5, g6, g7⟩ := h.reserveTrue dbg zero junk n (le_restrict h.filled2_le hE)
      exact ⟨v1, g1, E, g2, by rw [g3, h1]; rfl, by rw [g4, h2]; rfl, by rw [g5, h3]; rfl, h4⟩
    | false =>
      have hr := core_fresh o IB v.size1 v.size2 (restrictCapacity v.size1 v.size2 n) v.idx1 (resizeRaw junk.1 v.idx2 (restrictCapacity v.size1 v.size2 n))
        (resizeRaw junk.2 v.val (restrictCapacity v.size1 v.size2 n)) h.idx1Len (CVec.length_resizeRaw _ _ _) (CVec.length_resizeRaw _ _ _)
      refine ⟨⟨v.size1, v.size2, restrictCapacity v.size1 v.size2 n, 1, 0, v.idx1.set 0 (0 + IB),
        resizeRaw junk.1 v.idx2 (restrictCapacity v.size1 v.size2 n), resizeRaw junk.2 v.val (restrictCapacity v.size1 v.size2 n)⟩, ?_, [], ?_, h1, h2, rfl, fun _ _ _ => rfl⟩
      rotate_left
      · simp only [cmstep]; rw [hflat0]; exact hr
      · simp only [CMat.step, CMat.reserve, Bool.false_eq_true, if_false, wr_ok (show 0 < v.idx1.length by rw [h.idx1Len]; omega), bind_ok]
        rw [hr.invariants dbg, bind_ok]
  | pushBack i j t =>
    obtain ⟨hi, hj, ho, hb⟩ := hl
    have hm : o.indexm i j < o.sizem v.size1 v.size2 := by rw [h1, h2]; exact minor_lt o hi hj
    have hM : o.indexM i j < o.sizeM v.size1 v.size2 := by rw [h1, h2]; exact major_lt o hi hj
    have hk : ∀ k, flat o s k ≠ none → k < o.indexM i j * o.sizem v.size1 v.size2 + o.indexm i j := by
      intro k hk
      have hlt := h.some_lt hk
      rw [h1, h2] at hlt ⊢
      obtain ⟨q1, q2, q3⟩ := elementRaw_index o hlt
      rw [← q3, ← key_eq, flat_at o s q1 q2] at hk
      have := (before_iff o q1 q2 hi hj).1 (hb _ hk)
      rwa [key_eq o (o.indexI k s.rows s.cols), q3] at this
    obtain ⟨v1, g1, g2, g3, g4, g5⟩ := h.pushBack dbg zero junk t hM hm (by omega) hk
    rw [h1, h2] at g2
    refine ⟨v1, g1, E ++ [(o.indexM i j * o.sizem s.rows s.cols + o.indexm i j, t)], ?_, by rw [g3, h1]; rfl, by rw [g4, h2]; rfl, g5, hrange i j _ hi hj⟩
    simp only [cmstep]; rw [flat_upd o s hi hj]; exact g2
  | popBack =>
    obtain ⟨p, hp⟩ := hl
    have hr : p.1 < s.rows ∧ p.2 < s.cols := Classical.byContradiction fun hc => hp (h4 p.1 p.2 hc)
    have hEne : E ≠ [] := by
      rintro rfl
      cases hv : s.val p with
      | none => exact hp hv
      | some w =>
        have := flat_at o s hr.1 hr.2
        rw [show (p.1, p.2) = p from rfl, hv] at this
        have := (h.rep.2 _ w).1 this
        simp at this
    obtain ⟨⟨L, w⟩, hL⟩ : ∃ p, E.getLast? = some p := ⟨_, List.getLast?_eq_some_getLast hEne⟩
    obtain ⟨i, j, q1, q2, q3, q4, q5⟩ := Inv.last h h1 h2 h4 hL
    obtain ⟨v1, g1, g2, g3, g4, g5⟩ := h.popBack dbg hL
    open Classical in
    have hval : (fun p => if IsLastM o s.val p then none else s.val p) = fun p => if p = (i, j) then none else s.val p := by
      funext p
      by_cases c : p = (i, j)
      · rw [if_pos c, c, if_pos q4]
      · rw [if_neg c, if_neg (fun hc => c (isLast_unique hc q4))]
    refine ⟨v1, g1, E.dropLast, ?_, by rw [g3, h1]; rfl, by rw [g4, h2]; rfl, ?_, ?_⟩
    · simp only [cmstep]; rw [hval, flat_upd o s q1 q2, ← q3]; exact g2
    · simp only [cmstep]; rw [g5, q5, h1, h2]
    · intro a b hab
      have := congrFun hval (a, b)
      simp only [cmstep]
      exact this.trans (hrange i j _ q1 q2 a b hab)
  | complete =>
    obtain ⟨v1, g1, g2, g3, g4, g5, g6, g7⟩ := h.openTo dbg (o.sizeM v.size1 v.size2 + 1) (Nat.le_refl _)
    refine ⟨v1, g1, E, g2, by rw [g3, h1]; rfl, by rw [g4, h2]; rfl, ?_, h4⟩
    simp only [cmstep]; rw [g5, h1, h2]; have := h.le; rw [h1, h2] at this; omega

theorem run_inv (dbg : Bool) (o : Orient) (IB : Nat) (zero : α) (ops : List (CMOp α × Junk α)) : ∀ (v : CMat α) (s : CMatS α),
    Inv o IB v s → cmlegalRun o zero s (ops.map (·.1)) →
    ∃ v', CMat.run dbg o IB zero v ops = .ok v' ∧ Inv o IB v' (cmrun o zero s (ops.map (·.1))) := by
  induction ops with
  | nil => intro v s h _; exact ⟨v, rfl, h⟩
  | cons op ops ih =>
    intro v s h hl
    obtain ⟨v1, e1, h1⟩ := step_inv dbg o IB zero op.2 v s op.1 h hl.1
    obtain ⟨v2, e2, h2⟩ := ih v1 _ h1 hl.2
    exact ⟨v2, by simp [CMat.run, e1, e2], h2⟩

theorem inv_ctor (dbg : Bool) (o : Orient) (IB : Nat) (junk : Junk α) (r c nz : Nat) :
    ∃ v, CMat.ctor dbg o IB junk r c nz = .ok v ∧ Inv o IB v ⟨r, c, fun _ => none, 0⟩ := by
  have hr := core_fresh o IB r c (restrictCapacity r c nz) ((List.range (o.sizeM r c + 1)).map junk.1) ((List.range (restrictCapacity r c nz)).map junk.1)
    ((List.range (restrictCapacity r c nz)).map junk.2) (by simp) (by simp) (by simp)
  have hf : flat o (⟨r, c, fun _ => none, 0⟩ : CMatS α) = fun _ => none := by
    funext k; simp only [flat, MappedMat.flat, toMat]; exact ite_self _
  refine ⟨_, ?_, [], by rw [hf]; exact hr, rfl, rfl, rfl, fun _ _ _ => rfl⟩
  simp only [CMat.ctor, wr_ok (show 0 < ((List.range (o.sizeM r c + 1)).map junk.1).length by simp), bind_ok]
  rw [hr.invariants dbg, bind_ok]

theorem Inv.observes (dbg : Bool) (o : Orient) (IB : Nat) (zero : α) {v : CMat α} {s : CMatS α} (h : Inv o IB v s) :
    CMObserves dbg o IB zero v s := by
  obtain ⟨E, h, h1, h2, h3, h4⟩ := h
  refine ⟨h1, h2, ?_, ?_, h4, ?_⟩
  · intro i j hi hj
    rw [h.get dbg zero (by rw [h1, h2]; exact minor_lt o hi hj), h1, h2, flat_at o s hi hj]
  · intro i j hi hj
    rw [h.findElement dbg (by rw [h1, h2]; exact minor_lt o hi hj), h1, h2, flat_at o s hi hj]
  · have hle := h.le
    have hoff := h.off
    have hbel := h.below
    have hseg := fun r n hn => h.segment r (n := n) hn
    have hidx := fun n hn => h.idx2At (n := n) hn
    have hl1 := h.idx1Len
    rw [h1, h2] at hle hoff hbel hl1
    simp only [h1, h2] at hseg hidx
    generalize hsm : o.sizem s.rows s.cols = sm at *
    have hval : ∀ n (hn : n < E.length), ∃ i j, i < s.rows ∧ j < s.cols ∧ E[n].1 = o.indexM i j * sm + o.indexm i j ∧ s.val (i, j) = some E[n].2 := by
      intro n hn
      have hv : flat o s E[n].1 = some E[n].2 := h.rep.some_of_getElem (List.getElem?_eq_getElem hn)
      have hlt := h.some_lt (k := E[n].1) (by rw [hv]; simp)
      rw [h1, h2] at hlt
      obtain ⟨q1, q2, q3⟩ := elementRaw_index o hlt
      refine ⟨_, _, q1, q2, by rw [← hsm, key_eq, q3], ?_⟩
      rw [← flat_at o s q1 q2, key_eq, q3, hv]
    refine ⟨fun k => cnt E (k * sm), ?_, ?_, ?_, h3, by omega, hl1, h.fill, h.idx2Len, h.valLen, ?_, ?_, ?_, ?_⟩
    · simp [cnt]
    · rw [← h.len]; refine cnt_all (fun p hp => ?_)
      have := hbel p hp; rwa [h3, Nat.add_sub_cancel] at this
    · intro k l hkl; exact cnt_mono _ (Nat.mul_le_mul_right _ hkl)
    · intro k hk; exact hoff k (by omega)
    · intro k n hk q1 q2
      have hn : n < E.length := Nat.lt_of_lt_of_le q2 (cnt_le _ _)
      have hn' : n < v.filled2 := by rw [← h.len]; exact hn
      obtain ⟨i, j, r1, r2, r3, r4⟩ := hval n hn
      have a := (hseg k n hn).1.1 q1
      have b := (hseg k n hn).2.1 q2
      have hm : o.indexm i j < sm := by rw [← hsm]; exact minor_lt o r1 r2
      have hM : o.indexM i j = k := by
        rw [r3] at a b
        have := (key_lt_mul (e1 := o.indexM i j) (r := k + 1) hm).1 b
        have h' := (key_lt_mul (e1 := o.indexM i j) (r := k) hm)
        omega
      refine ⟨o.indexm i j, E[n].2, ?_, ?_, ?_⟩
      · rw [hidx n hn', List.getElem?_eq_getElem hn, Option.map_some, r3, key_mod hm]
      · rw [h.valAt hn', List.getElem?_eq_getElem hn]; rfl
      · rw [← hM]
        have : (o.indexM (o.indexM i j) (o.indexm i j), o.indexm (o.indexM i j) (o.indexm i j)) = (i, j) := by cases o <;> rfl
        rw [this]; exact r4
    · intro k n n' x x' hk q1 q2 q3 q4 q5
      have hn' : n' < E.length := Nat.lt_of_lt_of_le q3 (cnt_le _ _)
      have hn : n < E.length := by omega
      have hlt := h.rep.key_lt (List.getElem?_eq_getElem hn) (List.getElem?_eq_getElem hn') q2
      rw [hidx n (by rw [← h.len]; exact hn), List.getElem?_eq_getElem hn, Option.map_some, Option.some.injEq] at q4
      rw [hidx n' (by rw [← h.len]; exact hn'), List.getElem?_eq_getElem hn', Option.map_some, Option.some.injEq] at q5
      have a1 := (hseg k n hn).1.1 q1
      have b1 := (hseg k n hn).2.1 (Nat.lt_trans q2 q3)
      have a2 := (hseg k n' hn').1.1 (Nat.le_trans q1 (Nat.le_of_lt q2))
      have b2 := (hseg k n' hn').2.1 q3
      rw [mod_in a1 b1] at q4; rw [mod_in a2 b2] at q5
      omega
    · intro i j x hx
      have hr : i < s.rows ∧ j < s.cols := Classical.byContradiction fun hc => by rw [h4 i j hc] at hx; simp at hx
      have hm : o.indexm i j < sm := by rw [← hsm]; exact minor_lt o hr.1 hr.2
      have hv := flat_at o s hr.1 hr.2
      rw [hx, hsm] at hv
      obtain ⟨n, hn, hE⟩ := List.mem_iff_getElem.1 ((h.rep.2 _ _).1 hv)
      have hlt := hbel _ ((h.rep.2 _ _).1 hv)
      simp only [h3, Nat.add_sub_cancel] at hlt
      have hn' : n < v.filled2 := by rw [← h.len]; exact hn
      refine ⟨(key_lt_mul hm).1 hlt, n, ?_, ?_, ?_, ?_⟩
      · exact (hseg _ n hn).1.2 (by rw [hE]; simp)
      · exact (hseg _ n hn).2.2 (by rw [hE, mul_succ']; simp only; omega)
      · rw [hidx n hn', List.getElem?_eq_getElem hn, hE, Option.map_some, key_mod hm]
      · rw [h.valAt hn', List.getElem?_eq_getElem hn, hE]; rfl

end CMat

/-- **C24**.  For both orientations, any index base, any initial capacity and any legal history of element writes, insertions, erasures,
clear, discarding resize, reserve, push_back, pop_back and complete_index1_data (with arbitrary contents of newly allocated memory, and in
both build modes), every operation succeeds and the matrix agrees with the sparse-matrix specification: every read returns the last
value written since the element was erased, or zero, and the storage arrays are consistent compressed storage of exactly the stored
elements. -/
theorem C24_compressed_matrix (dbg : Bool) (o : Orient) (IB : Nat) (zero : α) (junk : CMat.Junk α) (r c nz : Nat) (ops : List (CMOp α × CMat.Junk α))
    (hl : cmlegalRun o zero ⟨r, c, fun _ => none, 0⟩ (ops.map (·.1))) :
    ∃ v0 v, CMat.ctor dbg o IB junk r c nz = .ok v0 ∧ CMat.run dbg o IB zero v0 ops = .ok v ∧
      CMObserves dbg o IB zero v (cmrun o zero ⟨r, c, fun _ => none, 0⟩ (ops.map (·.1))) := by
  obtain ⟨v0, e0, h0⟩ := CMat.inv_ctor dbg o IB junk r c nz
  obtain ⟨v, e, h⟩ := CMat.run_inv dbg o IB zero ops v0 _ h0 hl
  exact ⟨v0, v, e0, e, h.observes dbg o IB zero⟩

/-- Contents of new memory used in the examples. -/
def cmJunk : CMat.Junk Int := (fun i => 100 + i, fun i => (i : Int) - 3)

/-- A history that meets the hypotheses of C24: growth from capacity 2, insertion in the middle, erasure of the last line's only
element, push_back, pop_back. -/
def C24_demo : List (CMOp Int × CMat.Junk Int) :=
  ([.insert 1 2 12, .modify 0 1 (· + 7), .insert 1 0 10, .insert 1 1 11, .erase 1 0, .pushBack 2 1 21, .pushBack 2 2 22, .popBack, .complete] : List (CMOp Int)).map
    (fun op => (op, cmJunk))

example : cmlegalRun .row (0 : Int) ⟨3, 3, fun _ => none, 0⟩ (C24_demo.map (·.1)) ∧
    (do let v0 ← CMat.ctor true .row 1 cmJunk 3 3 0
        let v ← CMat.run true .row 1 0 v0 C24_demo
        Except.ok (v.idx1, v.filled1, v.idx2.take v.filled2, v.val.take v.filled2)) = .ok ([1, 2, 4, 5], 4, [2, 2, 3, 2], [7, 11, 12, 21]) := by
  refine ⟨?_, by decide⟩
  simp only [C24_demo, List.map_cons, List.map_nil, cmlegalRun, cmlegal]
  refine ⟨⟨by decide, by decide, trivial⟩, ⟨by decide, by decide⟩, ⟨by decide, by decide, by simp [cmstep]⟩, ⟨by decide, by decide, by simp [cmstep]⟩,
    ⟨by decide, by decide⟩, ⟨by simp [cmstep], by simp [cmstep], ?_, ?_⟩, ⟨by simp [cmstep], by simp [cmstep], by simp [cmstep, Orient.indexM], ?_⟩,
    ⟨(2, 2), by simp [cmstep]⟩, trivial, trivial⟩
  · have hlast : IsLastM .row (fun p => if p = (1, 1) then some (11 : Int) else if p = (1, 0) then some 10 else if p = (0, 1) then some 7 else if p = (1, 2) then some 12 else none) (1, 2) := by
      refine ⟨by simp, ?_⟩
      rintro ⟨a, b⟩ hq
      simp only [Before, Orient.indexM, Orient.indexm, Prod.mk.injEq] at *
      grind
    simp [cmstep, Orient.indexM, CMat.openLast_eq hlast]
  · rintro ⟨a, b⟩ hq
    simp only [cmstep, Before, Orient.indexM, Orient.indexm, Prod.mk.injEq] at *
    grind
  · rintro ⟨a, b⟩ hq
    simp only [cmstep, Before, Orient.indexM, Orient.indexm, Prod.mk.injEq] at *
    grind

/-- **C27** (compressed_matrix, refuted).  `resize (…)` with its default `preserve = true` is not implemented: with checks it raises
internal_logic, without checks every element is lost, although (0,0) is inside the new bounds. -/
theorem C27_compressed_matrix_resize_refuted :
    ∃ v0 v v' : CMat Int, CMat.ctor false .row 0 cmJunk 2 2 0 = .ok v0 ∧ CMat.run false .row 0 0 v0 [(.insert 0 0 5, cmJunk)] = .ok v ∧
      v.get false .row 0 0 0 0 = .ok 5 ∧ v.resize true .row 0 cmJunk 3 3 true = .error .internalLogic ∧
      v.resize false .row 0 cmJunk 3 3 true = .ok v' ∧ v'.get false .row 0 0 0 0 = .ok 0 :=
  ⟨_, _, _, rfl, rfl, rfl, rfl, rfl, rfl⟩

/-- **C28** (compressed_matrix, refuted).  Three elements in a 2×2 matrix, `reserve (2)`: with checks internal_logic is raised; without
checks an element of row 1 is dropped from the count while the row offsets still claim it. -/
theorem C28_compressed_matrix_reserve_refuted :
    ∃ v0 v v' : CMat Int, CMat.ctor false .row 0 cmJunk 2 2 3 = .ok v0 ∧
      CMat.run false .row 0 0 v0 [(.insert 0 0 1, cmJunk), (.insert 0 1 2, cmJunk), (.insert 1 1 3, cmJunk)] = .ok v ∧
      v.get false .row 0 0 1 1 = .ok 3 ∧ v.reserve true .row 0 0 cmJunk 2 true = .error .internalLogic ∧
      v.reserve false .row 0 0 cmJunk 2 true = .ok v' ∧ v'.get false .row 0 0 1 1 = .error .ub ∧ v'.invariants true .row 0 = .error .internalLogic :=
  ⟨_, _, _, rfl, rfl, rfl, rfl, rfl, rfl, rfl⟩

/-- **C28** (compressed_matrix, partial): in every state reachable by a legal history, `reserve (n)` not below the number of stored elements
changes nothing.  Missing: smaller `n`, for which the claim is false (above). -/
theorem C28_compressed_matrix_reserve_partial (dbg : Bool) (o : Orient) (IB : Nat) (zero : α) (junk : CMat.Junk α) (v : CMat α) (s : CMatS α)
    (h : CMat.Inv o IB v s) (n : Nat) (hn : AtMost n s.val) :
    ∃ v', v.reserve dbg o IB zero junk n true = .ok v' ∧ CMObserves dbg o IB zero v' s := by
  obtain ⟨v', e, h'⟩ := CMat.step_inv dbg o IB zero junk v s (.reserve n true) h (fun _ => hn)
  exact ⟨v', e, h'.observes dbg o IB zero⟩

/-- **C64** (refuted).  `push_back (1, 0, 9)` on a 3×1 matrix whose only element is (0,0) — so the new element comes after every stored
one — after an earlier element (2,0) was removed by `pop_back`: with checks external_logic is raised; without checks the value is stored at
(2,0) and (1,0) stays zero. -/
theorem C64_push_back_after_pop_back_refuted :
    ∃ v0 v v' : CMat Int, CMat.ctor false .row 0 cmJunk 3 1 3 = .ok v0 ∧
      CMat.run false .row 0 0 v0 [(.pushBack 0 0 7, cmJunk), (.pushBack 2 0 8, cmJunk), (.popBack, cmJunk)] = .ok v ∧
      v.filled2 = 1 ∧ v.get false .row 0 0 0 0 = .ok 7 ∧
      v.pushBack true .row 0 0 cmJunk 1 0 9 = .error .externalLogic ∧
      v.pushBack false .row 0 0 cmJunk 1 0 9 = .ok v' ∧ v'.get false .row 0 0 1 0 = .ok 0 ∧ v'.get false .row 0 0 2 0 = .ok 9 :=
  ⟨_, _, _, rfl, rfl, rfl, rfl, rfl, rfl, rfl, rfl⟩

/-- **C64** (partial).  In every state reachable by a legal history, `push_back (i, j, t)` appends the element if it comes after every
stored element *and* its line is not before the last line still open (`opened`).  Missing: elements on an earlier line than one left open by a
removal, for which the claim is false (above). -/
theorem C64_push_back_partial (dbg : Bool) (o : Orient) (IB : Nat) (zero : α) (junk : CMat.Junk α) (v : CMat α) (s : CMatS α)
    (h : CMat.Inv o IB v s) (i j : Nat) (t : α) (hi : i < s.rows) (hj : j < s.cols) (ho : s.opened ≤ o.indexM i j + 1)
    (hb : ∀ q, s.val q ≠ none → Before o q (i, j)) :
    ∃ v', v.pushBack dbg o IB zero junk i j t = .ok v' ∧
      CMObserves dbg o IB zero v' ⟨s.rows, s.cols, fun p => if p = (i, j) then some t else s.val p, o.indexM i j + 1⟩ := by
  obtain ⟨v', e, h'⟩ := CMat.step_inv dbg o IB zero junk v s (.pushBack i j t) h ⟨hi, hj, ho, hb⟩
  exact ⟨v', e, h'.observes dbg o IB zero⟩

/-- Reachable states that satisfy the hypotheses of the two partial theorems. -/
example : ∃ v : CMat Int, CMat.Inv .col 1 v ⟨3, 2, fun p => if p = (2, 0) then some 5 else none, 1⟩ ∧
    AtMost 1 (fun p : Nat × Nat => if p = (2, 0) then some (5 : Int) else none) ∧
    ∀ q, (if q = (2, 0) then some (5 : Int) else none) ≠ none → Before .col q (0, 1) := by
  obtain ⟨v0, _, h0⟩ := CMat.inv_ctor (α := Int) true .col 1 cmJunk 3 2 0
  obtain ⟨v, _, h1⟩ := CMat.step_inv true .col 1 0 cmJunk v0 _ (.insert 2 0 5) h0 ⟨by decide, by decide, rfl⟩
  refine ⟨v, h1, ?_, ?_⟩
  · intro L hL hm
    have h2 : ∀ p ∈ L, p = (2, 0) := fun p hp => by
      have := hm p hp; simp only at this; grind
    match L with
    | [] => simp
    | [_] => simp
    | a :: b :: l => simp [h2 a (by simp), h2 b (by simp)] at hL
  · intro q hq
    have : q = (2, 0) := by grind
    subst this; left; decide

end Ublas
