import Verif.Spec.Assigner
import Verif.Lemmas.CompressedMatrix
import Verif.Lemmas.Operation
import Mathlib.Data.List.Forall2
import Mathlib.Tactic.Ring
/-! # C57: comma assignment fills in traversal order -/
namespace Ublas.Assigner
variable {σ ι R : Type}

theorem perform_append (T : Target σ ι R) (a b : List (Write ι R)) (s : σ) : perform T (a ++ b) s = perform T a s >>= perform T b := by
  rw [perform, List.foldlM_append]; rfl

theorem perform_cons (T : Target σ ι R) (a : Write ι R) (b : List (Write ι R)) (s : σ) : perform T (a :: b) s = T a.fill s a.at_ a.val >>= perform T b := by
  rw [perform, List.foldlM_cons]; rfl

theorem perform_one (T : Target σ ι R) (a : Write ι R) (s : σ) : perform T [a] s = T a.fill s a.at_ a.val := by
  rw [perform_cons]; cases T a.fill s a.at_ a.val <;> rfl

theorem bind_assoc' {α β γ : Type} (x : M α) (f : α → M β) (g : β → M γ) : (x >>= f) >>= g = x >>= fun a => f a >>= g := by cases x <;> rfl

/-- A loop whose `k`-th step performs the `k`-th write. -/
theorem loop_perform {α : Type} (T : Target σ ι R) (body : Nat → α → M α) (mk : Nat → σ → α) : ∀ (ws : List (Write ι R)) (s : σ),
    (∀ k (hk : k < ws.length) s, body k (mk k s) = T ws[k].fill s ws[k].at_ ws[k].val >>= fun s => .ok (mk (k + 1) s)) →
    loop body ws.length (mk 0 s) = perform T ws s >>= fun s => .ok (mk ws.length s) := by
  intro ws
  induction ws using List.reverseRecOn with
  | nil => intro s _; rfl
  | append_singleton l w ih =>
    intro s h
    have ih' := ih s fun k hk s => by
      have := h k (by simp; omega) s
      rwa [List.getElem_append_left hk] at this
    rw [List.length_append, List.length_singleton, loop, ih', perform_append, bind_assoc', bind_assoc']
    congr 1
    funext t
    have hl := h l.length (by simp) t
    simp only [List.getElem_append_right (le_refl _), Nat.sub_self, List.getElem_cons_zero] at hl
    rw [bind_ok, hl, perform_one]

/-- **C57**, vectors, every script and every target: `v <<= items` performs exactly the specified writes, in this order, and stops at the first one that fails. -/
theorem C57_vector_writes (T : Target σ Nat R) {items : List (VItem R)} {specs : List (VSpec R)} (h : List.Forall₂ VItem.Means items specs) (s : σ) :
    vassign T s items = perform T (vwrites .assign 0 specs) s := by
  unfold vassign
  suffices ∀ f p s, (items.foldlM (VAsg.comma T) ⟨s, f, p⟩ >>= fun a => .ok a.target) = perform T (vwrites f p specs) s from this _ _ _
  induction h with
  | nil => intro f p s; rfl
  | cons hi _ ih =>
    intro f p s
    rw [List.foldlM_cons, bind_assoc']
    cases hi with
    | val x =>
      simp only [VAsg.comma, VAsg.apply, vwrites, List.mapIdx_cons, List.mapIdx_nil, perform_append, perform_one, bind_assoc', bind_ok, Nat.add_zero, List.length_singleton]
      congr 1; funext t; exact ih _ _ _
    | vec xs hx =>
      have := loop_perform T (fun k (a : VAsg σ) => do let x ← (‹Nat → M R› : Nat → M R) k; a.apply T x) (fun k s => ⟨s, f, p + k⟩) (xs.mapIdx fun t x => ⟨f, p + t, x⟩) s fun k hk s => by
        simp only [List.length_mapIdx] at hk
        simp only [hx k hk, bind_ok, VAsg.apply, List.getElem_mapIdx]; rfl
      simp only [List.length_mapIdx, Nat.add_zero] at this
      simp only [VAsg.comma, vwrites, perform_append]
      rw [this, bind_assoc']
      congr 1; funext t; exact ih _ _ _
    | moveTo k => exact ih _ _ _
    | move d => exact ih _ _ _
    | fill g => exact ih _ _ _

/-! ## Matrices -/

theorem inLines_inLines (b : Bool) (p : Nat × Nat) : inLines b (inLines b p) = p := by cases b <;> rfl

theorem applyWrap_eq (t : Trav) (r c i j : Nat) : t.applyWrap r c i j = inLines t.byRow (carry t.wrap (if t.byRow then c else r) (inLines t.byRow (i, j))) := by
  rcases t with ⟨_ | _, _ | _⟩ <;> simp only [Trav.applyWrap, apply1, inLines, carry] <;> split_ifs <;> simp_all

theorem advance_eq (t : Trav) (p : Nat × Nat) : t.advance (inLines t.byRow p).1 (inLines t.byRow p).2 = inLines t.byRow (p.1, p.2 + 1) := by
  rcases t with ⟨_ | _, _⟩ <;> rfl

theorem divmod_succ {s n : Nat} (hs : 0 < s) : (n % s + 1 ≥ s → (n + 1) / s = n / s + 1 ∧ (n + 1) % s = 0) ∧ (n % s + 1 < s → (n + 1) / s = n / s ∧ (n + 1) % s = n % s + 1) := by
  have h := Nat.div_add_mod n s
  have hm := Nat.mod_lt n hs
  constructor
  · intro hge
    have : n + 1 = (n / s + 1) * s + 0 := by rw [Nat.add_mul, Nat.one_mul, Nat.mul_comm]; omega
    rw [this]
    exact ⟨CMat.key_div hs, CMat.key_mod hs⟩
  · intro hlt
    have : n + 1 = (n / s) * s + (n % s + 1) := by rw [Nat.mul_comm]; omega
    rw [this, CMat.key_div hlt, CMat.key_mod hlt]
    exact ⟨rfl, rfl⟩

theorem carry_runEnd {wrap : Bool} {len : Nat} (h : 0 < len) (p : Nat × Nat) (k : Nat) : carry wrap len (runEnd wrap len p k) = runPos wrap len (carry wrap len p) k := by
  cases wrap with
  | false => cases k <;> simp [carry, runEnd, runPos]; omega
  | true =>
    cases k with
    | zero =>
      simp only [runEnd, if_true, runPos, Nat.add_zero]
      have : (carry true len p).2 < len := by
        unfold carry; split_ifs with hc
        · exact h
        · simpa using hc
      rw [CMat.key_div this, CMat.key_mod this]
    | succ k =>
      generalize hq : carry true len p = q
      rw [runEnd, if_neg (Nat.add_one_ne_zero k)]
      simp only [Nat.add_sub_cancel, hq]
      simp only [runPos, if_true, carry, true_and]
      have d := divmod_succ (n := q.1 * len + q.2 + k) h
      rw [← Nat.add_assoc (q.1 * len + q.2)]
      split_ifs with hc
      · rw [(d.1 hc).1, (d.1 hc).2]
      · rw [(d.2 (by omega)).1, (d.2 (by omega)).2]

theorem flat_range (s1 s2 : Nat) {β : Type} (h2 : 0 < s2) (g : Nat → Nat → β) : ((List.range s1).flatMap fun k => (List.range s2).map fun l => g k l) = (List.range (s1 * s2)).map fun n => g (n / s2) (n % s2) := by
  induction s1 with
  | zero => simp
  | succ s1 ih =>
    rw [List.range_succ, List.flatMap_append, ih, Nat.add_mul, Nat.one_mul, List.range_add, List.map_append, List.map_map]
    simp only [List.flatMap_cons, List.flatMap_nil, List.append_nil]
    congr 1
    refine List.map_congr_left fun l hl => ?_
    rw [List.mem_range] at hl
    simp only [Function.comp_apply, CMat.key_div hl, CMat.key_mod hl]

theorem succ_range' (n : Nat) : List.map Nat.succ (List.range' 0 n) = List.range' 1 n := by
  refine List.ext_getElem (by simp) fun k h1 h2 => ?_
  simp; omega

/-- The block loop from the `n`-th of `N` positions on. -/
theorem blockLoop_run (T : Target σ (Nat × Nat) R) {r c s1 s2 : Nat} {at_ : Nat → Nat → M R} {f : Fill} {t : Trav} {bi bj N : Nat} (P : Nat → Pos) (E : Pos) (v : Nat → R)
    (hat : ∀ n, n < N → at_ (P n).k (P n).l = .ok (v n)) (hn : ∀ n, n + 1 < N → t.next s1 s2 r c bi bj (P n) = (true, P (n + 1))) (he : t.next s1 s2 r c bi bj (P (N - 1)) = (false, E)) :
    ∀ m n fuel s, n + m + 1 = N → m < fuel → MAsg.blockLoop T r c s1 s2 at_ f t bi bj fuel s (P n) =
      perform T ((List.range' (n + 1) m).map fun q => ⟨f, ((P q).i, (P q).j), v q⟩) s >>= fun s => .ok (s, E) := by
  intro m
  induction m with
  | zero =>
    intro n fuel s hN hf
    obtain ⟨fuel, rfl⟩ : ∃ g, fuel = g + 1 := ⟨fuel - 1, by omega⟩
    have : n = N - 1 := by omega
    subst this
    simp only [MAsg.blockLoop, he, List.range'_zero, List.map_nil]
    rfl
  | succ m ih =>
    intro n fuel s hN hf
    obtain ⟨fuel, rfl⟩ : ∃ g, fuel = g + 1 := ⟨fuel - 1, by omega⟩
    rw [List.range'_succ, List.map_cons, perform_cons, bind_assoc']
    simp only [MAsg.blockLoop, hn n (by omega), if_true, hat (n + 1) (by omega), bind_ok]
    congr 1; funext u
    exact ih (n + 1) fuel u (by omega) (by omega)

theorem block_eq (T : Target σ (Nat × Nat) R) {r c : Nat} (a : MAsg σ) {s1 s2 : Nat} {at_ : Nat → Nat → M R} {b : Nat → Nat → R} (h1 : 0 < s1) (h2 : 0 < s2)
    (h : ∀ k l, k < s1 → l < s2 → at_ k l = .ok (b k l)) :
    a.block T r c s1 s2 at_ = perform T (blockWrites a.trav.byRow a.fill a.i a.j s1 s2 b) a.target >>= fun s =>
      .ok { a with target := s, i := (blockEnd a.trav r c a.i a.j s1 s2).1, j := (blockEnd a.trav r c a.i a.j s1 s2).2 } := by
  obtain ⟨s, f, ⟨byRow, wrap⟩, i, j⟩ := a
  have hN : 0 < s1 * s2 := Nat.mul_pos h1 h2
  have hb : ∀ n, n < s1 * s2 → n / s2 < s1 := fun n hn => (Nat.div_lt_iff_lt_mul h2).2 hn
  have hb' : ∀ n, n < s1 * s2 → n / s1 < s2 := fun n hn => (Nat.div_lt_iff_lt_mul h1).2 (by rwa [Nat.mul_comm])
  have hlast : ∀ s1 s2 : Nat, 0 < s1 → 0 < s2 → (s1 * s2 - 1) / s2 = s1 - 1 ∧ (s1 * s2 - 1) % s2 = s2 - 1 := by
    intro s1 s2 h1 h2
    have : s1 * s2 - 1 = (s1 - 1) * s2 + (s2 - 1) := by
      obtain ⟨u, rfl⟩ : ∃ u, s1 = u + 1 := ⟨s1 - 1, by omega⟩
      rw [Nat.add_mul, Nat.one_mul, Nat.add_sub_cancel]; omega
    rw [this]
    exact ⟨CMat.key_div (by omega), CMat.key_mod (by omega)⟩
  unfold MAsg.block
  rw [h 0 0 h1 h2, bind_ok]
  cases byRow with
  | true =>
    simp only [blockWrites, if_true]
    rw [flat_range s1 s2 h2 fun k l => (⟨f, (i + k, j + l), b k l⟩ : Write (Nat × Nat) R)]
    have e := blockLoop_run T (r := r) (c := c) (s1 := s1) (s2 := s2) (at_ := at_) (f := f) (t := ⟨true, wrap⟩) (bi := i) (bj := j) (N := s1 * s2)
      (fun n => ⟨i + n / s2, j + n % s2, n / s2, n % s2⟩) ⟨(blockEnd ⟨true, wrap⟩ r c i j s1 s2).1, (blockEnd ⟨true, wrap⟩ r c i j s1 s2).2, s1, 0⟩ (fun n => b (n / s2) (n % s2))
      (fun n hn => h _ _ (hb n hn) (Nat.mod_lt _ h2))
      (fun n hn => by
        have d := divmod_succ (n := n) h2
        simp only [Trav.next, if_true]
        split_ifs with k1 k2
        · have := hb (n + 1) hn; rw [(d.1 k1).1] at this; omega
        · rw [(d.1 k1).1, (d.1 k1).2]; rfl
        · rw [(d.2 (by omega)).1, (d.2 (by omega)).2]; rfl)
      (by
        simp only [hlast s1 s2 h1 h2, Trav.next, if_true]
        rw [if_pos (by omega), if_pos (by omega), show i + (s1 - 1) + 1 = i + s1 by omega, show s1 - 1 + 1 = s1 by omega]
        cases wrap
        · rfl
        · simp only [apply2, blockEnd, if_true]; split_ifs
          · rfl
          · rw [Nat.add_sub_cancel])
    rw [show s1 * s2 = (s1 * s2 - 1) + 1 by omega, List.range_succ_eq_map, List.map_cons, perform_cons, bind_assoc', List.map_map, ← show s1 * s2 = (s1 * s2 - 1) + 1 by omega]
    simp only [Nat.zero_div, Nat.zero_mod, Nat.add_zero]
    congr 1; funext u
    have e' := e (s1 * s2 - 1) 0 (s1 * s2 + s1 + s2 + 1) u (by omega) (by omega)
    simp only [Nat.zero_div, Nat.zero_mod, Nat.add_zero, Nat.zero_add] at e'
    rw [e', bind_assoc', List.range_eq_range', List.map_map.symm]
    rw [show List.map Nat.succ (List.range' 0 (s1 * s2 - 1)) = List.range' 1 (s1 * s2 - 1) from succ_range' _]
    rfl
  | false =>
    simp only [blockWrites, Bool.false_eq_true, if_false]
    rw [flat_range s2 s1 h1 fun l k => (⟨f, (i + k, j + l), b k l⟩ : Write (Nat × Nat) R)]
    have e := blockLoop_run T (r := r) (c := c) (s1 := s1) (s2 := s2) (at_ := at_) (f := f) (t := ⟨false, wrap⟩) (bi := i) (bj := j) (N := s2 * s1)
      (fun n => ⟨i + n % s1, j + n / s1, n % s1, n / s1⟩) ⟨(blockEnd ⟨false, wrap⟩ r c i j s1 s2).1, (blockEnd ⟨false, wrap⟩ r c i j s1 s2).2, 0, s2⟩ (fun n => b (n % s1) (n / s1))
      (fun n hn => h _ _ (Nat.mod_lt _ h1) (hb' n (by rwa [Nat.mul_comm])))
      (fun n hn => by
        have d := divmod_succ (n := n) h1
        simp only [Trav.next, Bool.false_eq_true, if_false]
        split_ifs with k1 k2
        · have := hb' (n + 1) (by rwa [Nat.mul_comm]); rw [(d.1 k1).1] at this; omega
        · rw [(d.1 k1).1, (d.1 k1).2]; rfl
        · rw [(d.2 (by omega)).1, (d.2 (by omega)).2]; rfl)
      (by
        simp only [hlast s2 s1 h2 h1, Trav.next, Bool.false_eq_true, if_false]
        rw [if_pos (by omega), if_pos (by omega), show j + (s2 - 1) + 1 = j + s2 by omega, show s2 - 1 + 1 = s2 by omega]
        cases wrap
        · rfl
        · simp only [apply2, blockEnd, if_true, Bool.false_eq_true, if_false]; split_ifs
          · rfl
          · rw [Nat.add_sub_cancel])
    have hN' : 0 < s2 * s1 := Nat.mul_pos h2 h1
    rw [show s2 * s1 = (s2 * s1 - 1) + 1 by omega, List.range_succ_eq_map, List.map_cons, perform_cons, bind_assoc', List.map_map]
    simp only [Nat.zero_div, Nat.zero_mod, Nat.add_zero]
    congr 1; funext u
    have e' := e (s2 * s1 - 1) 0 (s1 * s2 + s1 + s2 + 1) u (by omega) (by rw [Nat.mul_comm s2 s1]; omega)
    simp only [Nat.zero_div, Nat.zero_mod, Nat.add_zero, Nat.zero_add] at e'
    rw [e', bind_assoc', List.range_eq_range', List.map_map.symm]
    rw [show List.map Nat.succ (List.range' 0 (s2 * s1 - 1)) = List.range' 1 (s2 * s1 - 1) from succ_range' _]
    rfl

theorem value_eq (T : Target σ (Nat × Nat) R) {r c : Nat} (hr : 0 < r) (hc : 0 < c) (f : Fill) (t : Trav) (p : Nat × Nat) (k : Nat) (x : R) (s : σ) :
    MAsg.value T r c ⟨s, f, t, (inLines t.byRow (runEnd t.wrap (if t.byRow then c else r) p k)).1, (inLines t.byRow (runEnd t.wrap (if t.byRow then c else r) p k)).2⟩ x =
      T f s (inLines t.byRow (runPos t.wrap (if t.byRow then c else r) (carry t.wrap (if t.byRow then c else r) p) k)) x >>= fun s =>
      .ok ⟨s, f, t, (inLines t.byRow (runEnd t.wrap (if t.byRow then c else r) p (k + 1))).1, (inLines t.byRow (runEnd t.wrap (if t.byRow then c else r) p (k + 1))).2⟩ := by
  have hl : 0 < (if t.byRow then c else r) := by split_ifs <;> assumption
  simp only [MAsg.value, applyWrap_eq, Prod.mk.eta, inLines_inLines, carry_runEnd hl, advance_eq]
  simp only [runEnd, Nat.add_one_ne_zero, if_false, Nat.add_sub_cancel]

/-- **C57**, matrices: for a target with at least one row and column, `A <<= items` performs exactly the specified writes, in this order, and stops at the first one that fails. -/
theorem C57_matrix_writes (T : Target σ (Nat × Nat) R) {r c : Nat} (hr : 0 < r) (hc : 0 < c) {items : List (MItem R)} {specs : List (MSpec R)} (h : List.Forall₂ MItem.Means items specs) (s : σ) :
    massign T r c s items = perform T (mwrites r c .assign ⟨true, true⟩ 0 0 specs) s := by
  unfold massign
  suffices ∀ f t i j s, (items.foldlM (MAsg.comma T r c) ⟨s, f, t, i, j⟩ >>= fun a => .ok a.target) = perform T (mwrites r c f t i j specs) s from this _ _ _ _ _
  induction h with
  | nil => intro f t i j s; rfl
  | cons hi _ ih =>
    intro f t i j s
    have h0 : ∀ n, inLines t.byRow (runEnd t.wrap n (inLines t.byRow (i, j)) 0) = (i, j) := fun n => by rw [runEnd, if_pos rfl, inLines_inLines]
    rw [List.foldlM_cons, bind_assoc']
    cases hi with
    | val x =>
      have v := value_eq T hr hc f t (inLines t.byRow (i, j)) 0 x s
      rw [h0] at v
      simp only [MAsg.comma, mwrites, List.mapIdx_cons, List.mapIdx_nil, perform_append, perform_one, List.length_singleton]
      rw [v, bind_assoc']
      congr 1; funext u; exact ih _ _ _ _ _
    | vec xs hx =>
      have := loop_perform T (fun k (a : MAsg σ) => do let x ← (‹Nat → M R› : Nat → M R) k; a.value T r c x)
        (fun k s => ⟨s, f, t, (inLines t.byRow (runEnd t.wrap (if t.byRow then c else r) (inLines t.byRow (i, j)) k)).1, (inLines t.byRow (runEnd t.wrap (if t.byRow then c else r) (inLines t.byRow (i, j)) k)).2⟩)
        (xs.mapIdx fun k x => ⟨f, inLines t.byRow (runPos t.wrap (if t.byRow then c else r) (carry t.wrap (if t.byRow then c else r) (inLines t.byRow (i, j))) k), x⟩) s fun k hk s => by
          simp only [List.length_mapIdx] at hk
          simp only [hx k hk, bind_ok, List.getElem_mapIdx]
          exact value_eq T hr hc f t _ k _ s
      simp only [List.length_mapIdx, h0] at this
      simp only [MAsg.comma, mwrites, perform_append]
      rw [this, bind_assoc']
      congr 1; funext u; exact ih _ _ _ _ _
    | mat b h1 h2 hx =>
      simp only [MAsg.comma, mwrites, perform_append]
      rw [block_eq T ⟨s, f, t, i, j⟩ h1 h2 hx, bind_assoc']
      congr 1; funext u; exact ih _ _ _ _ _
    | moveTo k l => exact ih _ _ _ _ _
    | move d e => exact ih _ _ _ _ _
    | begin1 => exact ih _ _ _ _ _
    | begin2 => exact ih _ _ _ _ _
    | nextRow => exact ih _ _ _ _ _
    | nextColumn => exact ih _ _ _ _ _
    | fill g => exact ih _ _ _ _ _
    | traverse u =>
      simp only [MAsg.comma, mwrites, applyWrap_eq, bind_ok]
      exact ih _ _ _ _ _

end Ublas.Assigner
