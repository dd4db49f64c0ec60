import Verif.Model.MapOfMaps
import Verif.Props.Mapped
/-! # C87: mapped_vector_of_mapped_vector -/
namespace Ublas
open Assoc SparseSpec
variable {α σ τ : Type}

/-- The same call on the sparse matrix of the specification. -/
def MapMapOp.toSM : MapMapOp α → SMOp α
  | .modify i j f => .modify i j f
  | .insert i j t => .insert i j t
  | .erase i j => .erase i j
  | .clear => .clear
  | .resize r c => .resize r c

/-- What a user observes (in-range indices; the container performs no index checks). -/
def MapMap.Observes (O : MapImpl τ σ) (I : MapImpl σ α) (o : Orient) (zero : α) (v : MapMap τ) (s : Mat α) : Prop :=
  v.size1 = s.rows ∧ v.size2 = s.cols ∧
  (∀ i j, i < s.rows → j < s.cols → v.get O I o zero i j = .ok ((s.val (i, j)).getD zero)) ∧
  (∀ i j, i < s.rows → j < s.cols → v.findElement O I o i j = .ok (s.val (i, j))) ∧
  (∀ i j, ¬ (i < s.rows ∧ j < s.cols) → s.val (i, j) = none)

namespace MapMap
variable {O : MapImpl τ σ} {I : MapImpl σ α} {RO : τ → (Nat → Option σ) → Prop} {RI : σ → (Nat → Option α) → Prop}

/-- Line `k` of the matrix along the storage order. -/
def lineVal (o : Orient) (s : Mat α) (k : Nat) : Nat → Option α := fun m => s.val (o.indexM k m, o.indexm k m)

theorem cell_eq (o : Orient) (i j : Nat) : (o.indexM (o.indexM i j) (o.indexm i j), o.indexm (o.indexM i j) (o.indexm i j)) = (i, j) := by
  cases o <;> rfl

theorem lineVal_cell (o : Orient) (s : Mat α) (i j : Nat) : lineVal o s (o.indexM i j) (o.indexm i j) = s.val (i, j) := by
  cases o <;> rfl

theorem lineVal_upd (o : Orient) (s : Mat α) (i j : Nat) (x : Option α) (k : Nat) :
    lineVal o { s with val := fun p => if p = (i, j) then x else s.val p } k =
      if k = o.indexM i j then upd (lineVal o s k) (o.indexm i j) x else lineVal o s k := by
  funext m
  cases o
  · show _ = (if k = i then _ else _ : Nat → Option α) m
    by_cases h : k = i
    · rw [if_pos h]; simp only [lineVal, Orient.indexM, Orient.indexm, Prod.mk.injEq, upd, h, true_and]
    · rw [if_neg h]; simp only [lineVal, Orient.indexM, Orient.indexm, Prod.mk.injEq, h, if_false, false_and]
  · show _ = (if k = j then _ else _ : Nat → Option α) m
    by_cases h : k = j
    · rw [if_pos h]; simp only [lineVal, Orient.indexM, Orient.indexm, Prod.mk.injEq, upd, h, and_true]
    · rw [if_neg h]; simp only [lineVal, Orient.indexM, Orient.indexm, Prod.mk.injEq, h, if_false, and_false]

/-- The map represents the matrix: every line that exists holds its elements, lines that do not exist have none, and the sentinel exists. -/
def Inv (RO : τ → (Nat → Option σ) → Prop) (RI : σ → (Nat → Option α) → Prop) (o : Orient) (v : MapMap τ) (s : Mat α) : Prop :=
  v.size1 = s.rows ∧ v.size2 = s.cols ∧ (∀ i j, ¬ (i < s.rows ∧ j < s.cols) → s.val (i, j) = none) ∧
  ∃ S, RO v.map S ∧ S (o.sizeM s.rows s.cols) ≠ none ∧ ∀ k, match S k with
    | none => lineVal o s k = fun _ => none
    | some x => k ≤ o.sizeM s.rows s.cols ∧ RI x (lineVal o s k)

theorem putEmpty_inv (LO : MapLaws O RO) (LI : MapLaws I RI) (dbg : Bool) (o : Orient) (r c : Nat) {m : τ} (h : RO m fun _ => none) :
    ∃ m', putEmpty O I dbg m (o.sizeM r c) = .ok m' ∧ Inv RO RI o ⟨r, c, m'⟩ ⟨r, c, fun _ => none⟩ := by
  obtain ⟨m1, g1, g2⟩ := LO.insert dbg m _ (o.sizeM r c) I.empty h
  obtain ⟨m2, g3, g4⟩ := LO.setAt m1 _ (o.sizeM r c) I.empty I.empty g2 (by simp [upd])
  refine ⟨m2, by simp [putEmpty, g1, g3], rfl, rfl, fun _ _ _ => rfl, _, g4, by simp [upd], ?_⟩
  intro k
  by_cases hk : k = o.sizeM r c
  · subst hk; simp only [upd, if_true]; exact ⟨Nat.le_refl _, LI.empty⟩
  · simp only [upd, if_neg hk]; rfl

/-- Replacing one line after inserting it if need be. -/
theorem put_inv (LO : MapLaws O RO) (LI : MapLaws I RI) (dbg : Bool) (o : Orient) {v : MapMap τ} {s : Mat α} (h : Inv RO RI o v s) {i j : Nat}
    (hi : i < s.rows) (hj : j < s.cols) (t : Option α) :
    ∃ m1 b x, O.insert dbg v.map (o.indexM i j) I.empty = .ok (m1, b) ∧ O.find m1 (o.indexM i j) = .ok (some x) ∧ RI x (lineVal o s (o.indexM i j)) ∧
      ∀ y, RI y (upd (lineVal o s (o.indexM i j)) (o.indexm i j) t) → ∃ m2, O.setAt m1 (o.indexM i j) y = .ok m2 ∧
        Inv RO RI o { v with map := m2 } { s with val := fun p => if p = (i, j) then t else s.val p } := by
  obtain ⟨h1, h2, h3, S, h4, h5, h6⟩ := h
  obtain ⟨m1, g1, g2⟩ := LO.insert dbg v.map S (o.indexM i j) I.empty h4
  have hle : o.indexM i j ≤ o.sizeM s.rows s.cols := by cases o <;> simp [Orient.indexM, Orient.sizeM] <;> omega
  refine ⟨m1, _, (S (o.indexM i j)).getD I.empty, g1, by rw [LO.find m1 _ _ g2]; exact congrArg Except.ok (if_pos rfl), ?_, ?_⟩
  · have := h6 (o.indexM i j)
    split at this <;> rename_i e
    · rw [e, this]; exact LI.empty
    · rw [e]; exact this.2
  · intro y hy
    obtain ⟨m2, g3, g4⟩ := LO.setAt m1 _ (o.indexM i j) _ y g2 (if_pos rfl)
    refine ⟨m2, g3, h1, h2, ?_, _, g4, ?_, ?_⟩
    · intro a b hab
      replace hab : ¬ (a < s.rows ∧ b < s.cols) := hab
      show (if (a, b) = (i, j) then t else s.val (a, b)) = none
      rw [if_neg (by simp only [Prod.mk.injEq]; intro e; omega)]; exact h3 a b hab
    · simp only [upd]; split
      · simp
      · exact h5
    · intro k
      show match upd (upd S _ _) _ _ k with | none => _ | some x => _
      rw [lineVal_upd]
      by_cases hk : k = o.indexM i j
      · subst hk; simp only [upd, if_true]; exact ⟨hle, hy⟩
      · simp only [upd, if_neg hk]; exact h6 k

theorem step_inv (LO : MapLaws O RO) (LI : MapLaws I RI) (dbg : Bool) (o : Orient) (zero : α) (v : MapMap τ) (s : Mat α) (op : MapMapOp α)
    (h : Inv RO RI o v s) (hl : mlegal s op.toSM) : ∃ v', MapMap.step O I dbg o zero v op = .ok v' ∧ Inv RO RI o v' (mstep zero s op.toSM) := by
  cases op with
  | modify i j f =>
    obtain ⟨hi, hj⟩ := hl
    obtain ⟨m1, b, x, g1, g2, g3, g4⟩ := put_inv LO LI dbg o h hi hj (some (f ((s.val (i, j)).getD zero)))
    obtain ⟨x1, k1, k2⟩ := LI.insert dbg x _ (o.indexm i j) zero g3
    rw [lineVal_cell] at k1 k2
    obtain ⟨x2, k3, k4⟩ := LI.setAt x1 _ (o.indexm i j) ((s.val (i, j)).getD zero) (f ((s.val (i, j)).getD zero)) k2 (by simp [upd])
    have : upd (upd (lineVal o s (o.indexM i j)) (o.indexm i j) (some ((s.val (i, j)).getD zero))) (o.indexm i j) (some (f ((s.val (i, j)).getD zero))) =
        upd (lineVal o s (o.indexM i j)) (o.indexm i j) (some (f ((s.val (i, j)).getD zero))) := by
      funext m; simp only [upd]; split <;> rfl
    rw [this] at k4
    obtain ⟨m2, k5, k6⟩ := g4 x2 k4
    exact ⟨_, by simp [MapMap.step, MapMap.modify, g1, g2, k1, LI.find _ _ _ k2, upd, k3, k5], k6⟩
  | insert i j t =>
    obtain ⟨hi, hj, hn⟩ := hl
    obtain ⟨m1, b, x, g1, g2, g3, g4⟩ := put_inv LO LI dbg o h hi hj (some t)
    obtain ⟨x1, k1, k2⟩ := LI.insert dbg x _ (o.indexm i j) t g3
    rw [lineVal_cell, hn] at k1 k2
    obtain ⟨m2, k5, k6⟩ := g4 x1 k2
    have hf : v.findElement O I o i j = .ok none := by
      obtain ⟨h1, h2, h3, S, h4, h5, h6⟩ := h
      have := h6 (o.indexM i j)
      simp only [findElement, LO.find _ _ _ h4, bind_ok]
      split at this <;> rename_i e
      · simp [e]
      · simp only [e]; rw [LI.find _ _ _ this.2, lineVal_cell, hn]
    exact ⟨_, by simp [MapMap.step, MapMap.insertElement, hf, g1, g2, k1, k5], k6⟩
  | erase i j =>
    obtain ⟨hi, hj⟩ := hl
    have same : s.val (i, j) = none → (fun p => if p = (i, j) then none else s.val p) = s.val := by
      intro e; funext p; split
      · rename_i hp; rw [hp, e]
      · rfl
    obtain ⟨h1, h2, h3, S, h4, h5, h6⟩ := h
    have hk := h6 (o.indexM i j)
    split at hk <;> rename_i e
    · have hn : s.val (i, j) = none := by rw [← lineVal_cell o s i j, hk]
      refine ⟨v, by simp [MapMap.step, MapMap.eraseElement, LO.find _ _ _ h4, e], ?_⟩
      simp only [MapMapOp.toSM, mstep, same hn]
      exact ⟨h1, h2, h3, S, h4, h5, h6⟩
    · rename_i x
      cases hv : s.val (i, j) with
      | none =>
        refine ⟨v, by simp [MapMap.step, MapMap.eraseElement, LO.find _ _ _ h4, e, LI.find _ _ _ hk.2, lineVal_cell, hv], ?_⟩
        simp only [MapMapOp.toSM, mstep, same hv]
        exact ⟨h1, h2, h3, S, h4, h5, h6⟩
      | some w =>
        obtain ⟨y, k1, k2⟩ := LI.eraseKey dbg x _ (o.indexm i j) w hk.2 (by rw [lineVal_cell, hv])
        obtain ⟨m2, k3, k4⟩ := LO.setAt v.map S (o.indexM i j) x y h4 e
        refine ⟨{ v with map := m2 }, by simp [MapMap.step, MapMap.eraseElement, LO.find _ _ _ h4, e, LI.find _ _ _ hk.2, lineVal_cell, hv, k1, k3],
          h1, h2, ?_, _, k4, ?_, ?_⟩
        · intro a b hab
          show (if (a, b) = (i, j) then none else s.val (a, b)) = none
          split
          · rfl
          · exact h3 a b hab
        · simp only [upd]; split
          · simp
          · exact h5
        · intro k
          show match upd S _ _ k with | none => _ | some x => _
          have := lineVal_upd o s i j none k
          simp only [MapMapOp.toSM, mstep]
          rw [this]
          by_cases hk' : k = o.indexM i j
          · subst hk'; simp only [upd, if_true]; exact ⟨hk.1, k2⟩
          · simp only [upd, if_neg hk']; exact h6 k
  | clear =>
    obtain ⟨h1, h2, h3, S, h4, h5, h6⟩ := h
    obtain ⟨m1, g1, g2⟩ := LO.clear dbg v.map S h4
    obtain ⟨m2, g3, g4⟩ := putEmpty_inv LO LI dbg o v.size1 v.size2 g2
    refine ⟨{ v with map := m2 }, by simp [MapMap.step, MapMap.clear, g1, g3], ?_⟩
    simp only [MapMapOp.toSM, mstep]
    rw [h1, h2] at g4
    obtain ⟨_, _, x⟩ := g4
    exact ⟨h1, h2, x⟩
  | resize r c =>
    obtain ⟨h1, h2, h3, S, h4, h5, h6⟩ := h
    obtain ⟨m1, g1, g2⟩ := LO.clear dbg v.map S h4
    obtain ⟨m2, g3, g4⟩ := putEmpty_inv LO LI dbg o r c g2
    exact ⟨⟨r, c, m2⟩, by simp [MapMap.step, MapMap.resize, g1, g3], g4⟩

theorem run_inv (LO : MapLaws O RO) (LI : MapLaws I RI) (dbg : Bool) (o : Orient) (zero : α) (ops : List (MapMapOp α)) : ∀ (v : MapMap τ) (s : Mat α),
    Inv RO RI o v s → mlegalRun zero s (ops.map (·.toSM)) →
      ∃ v', MapMap.run O I dbg o zero v ops = .ok v' ∧ Inv RO RI o v' (mrun zero s (ops.map (·.toSM))) := by
  induction ops with
  | nil => intro v s h _; exact ⟨v, rfl, h⟩
  | cons op ops ih =>
    intro v s h hl
    obtain ⟨v1, e1, h1⟩ := step_inv LO LI dbg o zero v s op h hl.1
    obtain ⟨v2, e2, h2⟩ := ih v1 _ h1 hl.2
    exact ⟨v2, by simp [MapMap.run, e1, e2], h2⟩

theorem Inv.observes (LO : MapLaws O RO) (LI : MapLaws I RI) (o : Orient) (zero : α) {v : MapMap τ} {s : Mat α} (h : Inv RO RI o v s) :
    Observes O I o zero v s := by
  obtain ⟨h1, h2, h3, S, h4, h5, h6⟩ := h
  refine ⟨h1, h2, ?_, ?_, h3⟩
  · intro i j _ _
    have := h6 (o.indexM i j)
    simp only [get, LO.find _ _ _ h4, bind_ok]
    split at this <;> rename_i e
    · simp only [e]; rw [← lineVal_cell o s i j, this]; rfl
    · simp only [e, LI.find _ _ _ this.2, bind_ok, lineVal_cell]
      cases s.val (i, j) <;> rfl
  · intro i j _ _
    have := h6 (o.indexM i j)
    simp only [findElement, LO.find _ _ _ h4, bind_ok]
    split at this <;> rename_i e
    · simp only [e]; rw [← lineVal_cell o s i j, this]
    · simp only [e, LI.find _ _ _ this.2, lineVal_cell]

theorem ctor_inv (LO : MapLaws O RO) (LI : MapLaws I RI) (dbg : Bool) (o : Orient) (r c : Nat) :
    ∃ v0, MapMap.ctor O I dbg o r c = .ok v0 ∧ Inv RO RI o v0 ⟨r, c, fun _ => none⟩ := by
  obtain ⟨m, g1, g2⟩ := putEmpty_inv LO LI dbg o r c LO.empty
  exact ⟨_, by simp [MapMap.ctor, g1], g2⟩

end MapMap

/-- **C87.** Over any two correct maps and for both orientations: construct a `mapped_vector_of_mapped_vector` of any shape, apply any legal history of element
writes, inserts, erases, clear and non-preserving resize: no fault in either build mode, and afterwards shape, every read and every `find_element` of an element
inside the matrix are those of the specified sparse matrix. -/
theorem C87_map_of_maps (O : MapImpl τ σ) (I : MapImpl σ α) (RO : τ → (Nat → Option σ) → Prop) (RI : σ → (Nat → Option α) → Prop) (LO : MapLaws O RO)
    (LI : MapLaws I RI) (dbg : Bool) (o : Orient) (zero : α) (r c : Nat) (ops : List (MapMapOp α))
    (hl : mlegalRun zero ⟨r, c, fun _ => none⟩ (ops.map (·.toSM))) :
    ∃ v0 v, MapMap.ctor O I dbg o r c = .ok v0 ∧ MapMap.run O I dbg o zero v0 ops = .ok v ∧
      MapMap.Observes O I o zero v (mrun zero ⟨r, c, fun _ => none⟩ (ops.map (·.toSM))) := by
  obtain ⟨v0, e0, g0⟩ := MapMap.ctor_inv LO LI dbg o r c
  obtain ⟨v, e, h⟩ := MapMap.run_inv LO LI dbg o zero ops v0 _ g0 hl
  exact ⟨v0, v, e0, e, h.observes LO LI o zero⟩

/-- **C87** for the default storage, `map_std` of `map_std`. -/
theorem C87_map_of_maps_std (dbg : Bool) (o : Orient) (zero : α) (r c : Nat) (ops : List (MapMapOp α))
    (hl : mlegalRun zero ⟨r, c, fun _ => none⟩ (ops.map (·.toSM))) :
    ∃ v0 v, MapMap.ctor stdMapImpl stdMapImpl dbg o r c = .ok v0 ∧ MapMap.run stdMapImpl stdMapImpl dbg o zero v0 ops = .ok v ∧
      MapMap.Observes stdMapImpl stdMapImpl o zero v (mrun zero ⟨r, c, fun _ => none⟩ (ops.map (·.toSM))) :=
  C87_map_of_maps _ _ _ _ stdMap_laws stdMap_laws dbg o zero r c ops hl

/-- **C87 (guards).**  After any legal history: in debug builds a duplicate `insert_element` raises `bad_index`, and `resize` with `preserve` (its default)
raises `internal_logic`; in release builds the latter drops every element. -/
theorem C87_rejects (O : MapImpl τ σ) (I : MapImpl σ α) (RO : τ → (Nat → Option σ) → Prop) (RI : σ → (Nat → Option α) → Prop) (LO : MapLaws O RO)
    (LI : MapLaws I RI) (dbg : Bool) (o : Orient) (zero : α) (r c : Nat) (ops : List (MapMapOp α))
    (hl : mlegalRun zero ⟨r, c, fun _ => none⟩ (ops.map (·.toSM))) (s : Mat α) (hs : s = mrun zero ⟨r, c, fun _ => none⟩ (ops.map (·.toSM))) :
    ∃ v0 v, MapMap.ctor O I dbg o r c = .ok v0 ∧ MapMap.run O I dbg o zero v0 ops = .ok v ∧
      (∀ i j t, s.val (i, j) ≠ none → v.insertElement O I true o i j t = .error .badIndex) ∧
      (∀ r c, v.resize O I true o r c true = .error .internalLogic) ∧
      (∀ r c, ∃ v', v.resize O I false o r c true = .ok v' ∧ MapMap.Observes O I o zero v' ⟨r, c, fun _ => none⟩) := by
  obtain ⟨v0, e0, g0⟩ := MapMap.ctor_inv LO LI dbg o r c
  obtain ⟨v, e, h⟩ := MapMap.run_inv LO LI dbg o zero ops v0 _ g0 hl
  rw [← hs] at h
  obtain ⟨h1, h2, h3, S, h4, h5, h6⟩ := h
  refine ⟨v0, v, e0, e, ?_, fun r c => by simp [MapMap.resize, check], ?_⟩
  · intro i j t hn
    have hf : v.findElement O I o i j = .ok (s.val (i, j)) := by
      have := h6 (o.indexM i j)
      simp only [MapMap.findElement, LO.find _ _ _ h4, bind_ok]
      split at this <;> rename_i e
      · simp only [e]; rw [← MapMap.lineVal_cell o s i j, this]
      · simp only [e, LI.find _ _ _ this.2, MapMap.lineVal_cell]
    obtain ⟨w, hw⟩ := Option.ne_none_iff_exists'.1 hn
    simp [MapMap.insertElement, hf, hw, check]
  · intro r c
    obtain ⟨m1, g1, g2⟩ := LO.clear false v.map S h4
    obtain ⟨m2, g3, g4⟩ := MapMap.putEmpty_inv LO LI false o r c g2
    exact ⟨⟨r, c, m2⟩, by simp [MapMap.resize, check, g1, g3], g4.observes LO LI o zero⟩

/-- **C87 refuted (index checks).**  Unlike the other containers this one accepts every index in debug builds too: after any legal history, reading any element
outside the matrix returns zero, writing it succeeds, and the written value is then read back. -/
theorem C87_unchecked_refuted (O : MapImpl τ σ) (I : MapImpl σ α) (RO : τ → (Nat → Option σ) → Prop) (RI : σ → (Nat → Option α) → Prop) (LO : MapLaws O RO)
    (LI : MapLaws I RI) (dbg : Bool) (o : Orient) (zero : α) (r c : Nat) (ops : List (MapMapOp α))
    (hl : mlegalRun zero ⟨r, c, fun _ => none⟩ (ops.map (·.toSM))) (s : Mat α) (hs : s = mrun zero ⟨r, c, fun _ => none⟩ (ops.map (·.toSM)))
    (i j : Nat) (hout : ¬ (i < s.rows ∧ j < s.cols)) (t : α) :
    ∃ v0 v v', MapMap.ctor O I dbg o r c = .ok v0 ∧ MapMap.run O I dbg o zero v0 ops = .ok v ∧
      v.get O I o zero i j = .ok zero ∧ v.modify O I dbg o zero i j (fun _ => t) = .ok v' ∧ v'.get O I o zero i j = .ok t := by
  obtain ⟨v0, e0, g0⟩ := MapMap.ctor_inv LO LI dbg o r c
  obtain ⟨v, e, h⟩ := MapMap.run_inv LO LI dbg o zero ops v0 _ g0 hl
  rw [← hs] at h
  obtain ⟨h1, h2, h3, S, h4, h5, h6⟩ := h
  have hk := h6 (o.indexM i j)
  have hn : s.val (i, j) = none := h3 i j hout
  obtain ⟨m1, g1, g2⟩ := LO.insert dbg v.map S (o.indexM i j) I.empty h4
  have hx : RI ((S (o.indexM i j)).getD I.empty) (MapMap.lineVal o s (o.indexM i j)) := by
    split at hk <;> rename_i e
    · rw [e, hk]; exact LI.empty
    · rw [e]; exact hk.2
  obtain ⟨x1, k1, k2⟩ := LI.insert dbg _ _ (o.indexm i j) zero hx
  obtain ⟨x2, k3, k4⟩ := LI.setAt x1 _ (o.indexm i j) zero t k2 (by simp [upd, MapMap.lineVal_cell, hn])
  obtain ⟨m2, g3, g4⟩ := LO.setAt m1 _ (o.indexM i j) _ x2 g2 (if_pos rfl)
  refine ⟨v0, v, { v with map := m2 }, e0, e, ?_, ?_, ?_⟩
  · simp only [MapMap.get, LO.find _ _ _ h4, bind_ok]
    split at hk <;> rename_i e
    · simp only [e]
    · simp only [e, LI.find _ _ _ hk.2, bind_ok, MapMap.lineVal_cell, hn]
  · have q : O.find m1 (o.indexM i j) = .ok (some ((S (o.indexM i j)).getD I.empty)) := by rw [LO.find _ _ _ g2]; exact congrArg Except.ok (if_pos rfl)
    have q2 : I.find x1 (o.indexm i j) = .ok (some zero) := by rw [LI.find _ _ _ k2]; simp [upd, MapMap.lineVal_cell, hn]
    simp only [MapMap.modify, g1, bind_ok, q, k1, q2, k3, g3]
  · simp [MapMap.get, LO.find _ _ _ g4, upd, LI.find _ _ _ k4]

/-- A demonstration history. -/
def C87_demo : List (MapMapOp Int) :=
  [.modify 1 2 (fun _ => 12), .insert 0 1 1, .modify 0 1 (· + 4), .erase 1 2, .insert 1 0 9]

example : mlegalRun 0 ⟨2, 3, fun _ => none⟩ (C87_demo.map (·.toSM)) ∧
    (do let v0 ← MapMap.ctor stdMapImpl stdMapImpl true .row 2 3
        let v ← MapMap.run stdMapImpl stdMapImpl true .row 0 v0 C87_demo
        let a ← v.get stdMapImpl stdMapImpl .row 0 0 1
        Except.ok (v.map, a) : M _) = .ok ([(0, [(1, 5)]), (1, [(0, 9)]), (2, [])], 5) := by
  refine ⟨?_, by rfl⟩
  simp [C87_demo, MapMapOp.toSM, mlegalRun, mlegal, mstep]

end Ublas
