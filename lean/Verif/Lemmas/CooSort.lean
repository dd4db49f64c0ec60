import Verif.Model.Coo
import Mathlib.Algebra.BigOperators.Group.List.Basic
/-! Correctness of the in-place merge and duplicate summation of the coordinate formats. -/
namespace Ublas.Coo
open Search
variable {κ α : Type} [DecidableEq κ]

/-- The comparison is a strict total order. -/
structure KeyOrd (lt : κ → κ → Bool) : Prop where
  irrefl : ∀ a, lt a a = false
  trans : ∀ a b c, lt a b = true → lt b c = true → lt a c = true
  total : ∀ a b, lt a b = true ∨ a = b ∨ lt b a = true

theorem KeyOrd.asymm {lt : κ → κ → Bool} (h : KeyOrd lt) {a b : κ} (hab : lt a b = true) : lt b a = false := by
  cases hb : lt b a with
  | false => rfl
  | true => have := h.trans a b a hab hb; rw [h.irrefl] at this; simp at this

/-- a ≤ b -/
def le (lt : κ → κ → Bool) (a b : κ) : Prop := lt b a = false

theorem KeyOrd.le_of_lt {lt : κ → κ → Bool} (h : KeyOrd lt) {a b : κ} (hab : lt a b = true) : le lt a b := h.asymm hab

theorem KeyOrd.le_iff {lt : κ → κ → Bool} (h : KeyOrd lt) {a b : κ} : le lt a b ↔ lt a b = true ∨ a = b := by
  constructor
  · intro hab
    rcases h.total a b with e | e | e
    · exact Or.inl e
    · exact Or.inr e
    · unfold le at hab; rw [e] at hab; simp at hab
  · rintro (e | e)
    · exact h.asymm e
    · subst e; exact h.irrefl a

theorem KeyOrd.le_trans {lt : κ → κ → Bool} (h : KeyOrd lt) {a b c : κ} (h1 : le lt a b) (h2 : le lt b c) : le lt a c := by
  rw [h.le_iff] at h1 h2 ⊢
  rcases h1 with e | e
  · rcases h2 with f | f
    · exact Or.inl (h.trans _ _ _ e f)
    · subst f; exact Or.inl e
  · subst e; exact h2

/-- Non-decreasing keys. -/
def Sorted (lt : κ → κ → Bool) (l : List (κ × α)) : Prop := l.Pairwise (fun a b => le lt a.1 b.1)
/-- Strictly increasing keys. -/
def Strict (lt : κ → κ → Bool) (l : List (κ × α)) : Prop := l.Pairwise (fun a b => lt a.1 b.1 = true)

theorem KeyOrd.sorted_of_strict {lt : κ → κ → Bool} (h : KeyOrd lt) {l : List (κ × α)} (hs : Strict lt l) : Sorted lt l :=
  hs.imp (fun hab => h.asymm hab)

/-- The hand-written lower bound. -/
theorem lowerBoundAt_spec (dbg : Bool) (lt : κ → κ → Bool) (h : KeyOrd lt) (idx : List κ) (target : Nat) (t : κ) (ht : idx[target]? = some t)
    (b0 e0 : Nat) (he0 : e0 ≤ idx.length)
    (hs : ∀ (i j : Nat) (x y : κ), b0 ≤ i → i ≤ j → j < e0 → idx[i]? = some x → idx[j]? = some y → le lt x y) :
    ∀ (fuel b e : Nat), e - b ≤ fuel → b0 ≤ b → b ≤ e → e ≤ e0 →
      (∀ (i : Nat) (x : κ), b0 ≤ i → i < b → idx[i]? = some x → lt x t = true) →
      (∀ (i : Nat) (x : κ), e ≤ i → i < e0 → idx[i]? = some x → le lt t x) →
      ∃ r, lowerBoundAt dbg lt idx target fuel b e = .ok r ∧ b0 ≤ r ∧ r ≤ e0 ∧
        (∀ (i : Nat) (x : κ), b0 ≤ i → i < r → idx[i]? = some x → lt x t = true) ∧
        (∀ (i : Nat) (x : κ), r ≤ i → i < e0 → idx[i]? = some x → le lt t x) := by
  intro fuel
  induction fuel with
  | zero =>
    intro b e h1 h2 h3 h4 h5 h6
    have : e = b := by omega
    subst this
    exact ⟨e, by simp [lowerBoundAt], h2, h4, h5, h6⟩
  | succ fuel ih =>
    intro b e h1 h2 h3 h4 h5 h6
    rw [lowerBoundAt]
    by_cases hc : e > b
    · rw [if_pos hc]
      have hm : (b + e) / 2 < idx.length := by omega
      simp only [rd_ok hm, rd_eq_ok.2 ht, bind_ok]
      have hmid := List.getElem?_eq_getElem hm
      by_cases hx : lt idx[(b + e) / 2] t = true
      · rw [if_pos hx]
        refine ih _ _ (by omega) (by omega) (by omega) h4 ?_ h6
        intro i x q1 q2 q3
        have := hs i ((b + e) / 2) x _ q1 (by omega) (by omega) q3 hmid
        rcases h.le_iff.1 this with f | f
        · exact h.trans _ _ _ f hx
        · rw [f]; exact hx
      · rw [if_neg hx]
        refine ih _ _ (by omega) (by omega) (by omega) (by omega) h5 ?_
        intro i x q1 q2 q3
        have := hs ((b + e) / 2) i _ x (by omega) q1 (by omega) hmid q3
        exact h.le_trans (by simpa [le] using hx) this
    · rw [if_neg hc]
      have : e = b := by omega
      subst this
      exact ⟨e, rfl, h2, h4, h5, h6⟩

theorem rotate_blocks {β : Type} (P L R S : List β) :
    rotate (P ++ L ++ R ++ S) P.length (P.length + L.length) (P.length + L.length + R.length) = .ok (P ++ R ++ L ++ S) := by
  unfold rotate
  rw [if_pos ⟨by omega, by omega, by simp; omega⟩]
  have e1 : (P ++ L ++ R ++ S).take P.length = P := by
    rw [List.append_assoc, List.append_assoc]; exact List.take_left' rfl
  have e2 : (P ++ L ++ R ++ S).drop (P.length + L.length) = R ++ S := by
    rw [List.append_assoc]; exact List.drop_left' (by simp)
  have e3 : (P ++ L ++ R ++ S).drop P.length = L ++ R ++ S := by
    rw [List.append_assoc, List.append_assoc]; rw [List.drop_left' rfl, ← List.append_assoc]
  have e4 : (P ++ L ++ R ++ S).drop (P.length + L.length + R.length) = S := List.drop_left' (by simp; omega)
  rw [e1, e2, e3, e4]
  have e5 : (R ++ S).take (P.length + L.length + R.length - (P.length + L.length)) = R := List.take_left' (by omega)
  have e6 : (L ++ R ++ S).take (P.length + L.length - P.length) = L := by rw [List.append_assoc]; exact List.take_left' (by omega)
  rw [e5, e6]

/-- The four-block picture: `(P ++ L ++ R ++ S)[P.length + L.length + i] = R[i]` etc. -/
theorem get_right {β : Type} (P L R S : List β) (i : Nat) (hi : i < R.length) :
    (P ++ L ++ R ++ S)[P.length + L.length + i]? = some R[i] := by
  rw [List.append_assoc, List.getElem?_append_right (by simp), List.getElem?_append_left (by simp; omega)]
  simp [show P.length + L.length + i - (P.length + L.length) = i by omega]

theorem get_left {β : Type} (P L R S : List β) (i : Nat) (hi : i < L.length) :
    (P ++ L ++ R ++ S)[P.length + i]? = some L[i] := by
  rw [List.append_assoc, List.append_assoc, List.getElem?_append_right (by simp), List.getElem?_append_left (by simp; omega)]
  simp [show P.length + i - P.length = i by omega]

theorem sorted_get {lt : κ → κ → Bool} (h : KeyOrd lt) {l : List (κ × α)} (hs : Sorted lt l) {i j : Nat} (hij : i ≤ j) (hj : j < l.length) :
    le lt (l[i]'(by omega)).1 l[j].1 := by
  rcases Nat.lt_or_eq_of_le hij with e | e
  · exact List.pairwise_iff_getElem.1 hs i j (by omega) hj e
  · subst e; exact h.irrefl _

/-- Splitting a sorted block by the lower bound of a pivot. -/
theorem lowerBoundAt_block (dbg : Bool) (lt : κ → κ → Bool) (h : KeyOrd lt) (Q R S : List (κ × α)) (hR : Sorted lt R)
    (target : Nat) (t : κ) (ht : ((Q ++ R ++ S).map (·.1))[target]? = some t) (fuel : Nat) (hf : R.length ≤ fuel) :
    ∃ r, r ≤ R.length ∧ lowerBoundAt dbg lt ((Q ++ R ++ S).map (·.1)) target fuel Q.length (Q.length + R.length) = .ok (Q.length + r) ∧
      (∀ p ∈ R.take r, lt p.1 t = true) ∧ (∀ p ∈ R.drop r, le lt t p.1) := by
  have hget : ∀ (i : Nat) (hi : i < R.length), ((Q ++ R ++ S).map (·.1))[Q.length + i]? = some R[i].1 := by
    intro i hi
    have := get_left Q R ([] : List (κ × α)) S i hi
    rw [List.append_nil] at this
    rw [List.getElem?_map, this]; rfl
  obtain ⟨r, h1, h2, h3, h4, h5⟩ := lowerBoundAt_spec dbg lt h ((Q ++ R ++ S).map (·.1)) target t ht Q.length (Q.length + R.length)
    (by simp) (by
      intro i j x y q1 q2 q3 q4 q5
      rw [show i = Q.length + (i - Q.length) by omega, hget (i - Q.length) (by omega)] at q4
      rw [show j = Q.length + (j - Q.length) by omega, hget (j - Q.length) (by omega)] at q5
      cases q4; cases q5
      exact sorted_get h hR (by omega) (by omega))
    fuel Q.length (Q.length + R.length) (by omega) (Nat.le_refl _) (by omega) (Nat.le_refl _)
    (fun i x q1 q2 => by omega) (fun i x q1 q2 => by omega)
  refine ⟨r - Q.length, by omega, by rw [h1]; congr 1; omega, ?_, ?_⟩
  · intro p hp
    obtain ⟨i, hi, rfl⟩ := List.mem_iff_getElem.1 hp
    simp only [List.length_take] at hi
    rw [List.getElem_take]
    exact h4 (Q.length + i) _ (by omega) (by omega) (hget i (by omega))
  · intro p hp
    obtain ⟨i, hi, rfl⟩ := List.mem_iff_getElem.1 hp
    simp only [List.length_drop] at hi
    rw [List.getElem_drop]
    exact h5 (Q.length + (r - Q.length + i)) _ (by omega) (by omega) (hget _ (by omega))

/-- **The in-place merge.** -/
theorem inplaceMerge_spec (dbg : Bool) (lt : κ → κ → Bool) (h : KeyOrd lt) :
    ∀ (fuel : Nat) (P L R S : List (κ × α)), L.length + R.length ≤ fuel → Sorted lt L → Sorted lt R →
      ∃ M, inplaceMerge dbg lt fuel ((P ++ L ++ R ++ S).map (·.1)) ((P ++ L ++ R ++ S).map (·.2)) P.length (P.length + L.length)
          (P.length + L.length + R.length) = .ok ((P ++ M ++ S).map (·.1), (P ++ M ++ S).map (·.2)) ∧
        M.Perm (L ++ R) ∧ Sorted lt M := by
  intro fuel
  induction fuel with
  | zero =>
    intro P L R S hf hL hR
    have hl : L = [] := List.length_eq_zero_iff.1 (by omega)
    have hr : R = [] := List.length_eq_zero_iff.1 (by omega)
    subst hl hr
    exact ⟨[], by simp [inplaceMerge], by simp, by simp [Sorted]⟩
  | succ fuel ih =>
    intro P L R S hf hL hR
    rw [inplaceMerge]
    simp only [show P.length + L.length - P.length = L.length by omega,
      show P.length + L.length + R.length - (P.length + L.length) = R.length by omega]
    by_cases h1 : L.length = 1 ∧ R.length = 1
    · rw [if_pos h1]
      obtain ⟨x, rfl⟩ := List.length_eq_one_iff.1 h1.1
      obtain ⟨y, rfl⟩ := List.length_eq_one_iff.1 h1.2
      have gx : ∀ {β : Type} (f : κ × α → β), ((P ++ [x] ++ [y] ++ S).map f)[P.length]? = some (f x) := by
        intro β f
        have := get_left P [x] [y] S 0 (by simp)
        rw [List.getElem?_map]; simp only [Nat.add_zero] at this; rw [this]; rfl
      have gy : ∀ {β : Type} (f : κ × α → β), ((P ++ [x] ++ [y] ++ S).map f)[P.length + 1]? = some (f y) := by
        intro β f
        have := get_right P [x] [y] S 0 (by simp)
        rw [List.getElem?_map]; simp only [List.length_singleton, Nat.add_zero] at this; rw [this]; rfl
      have sw : ∀ {β : Type} (f : κ × α → β), swapAt dbg ((P ++ [x] ++ [y] ++ S).map f) P.length (P.length + 1) =
          .ok ((P ++ [y, x] ++ S).map f) := by
        intro β f
        unfold swapAt
        rw [rd_eq_ok.2 (gx f), bind_ok, rd_eq_ok.2 (gy f), bind_ok, wr_ok (by simp), bind_ok, wr_ok (by simp)]
        congr 1
        simp
      simp only [List.length_singleton]
      rw [rd_eq_ok.2 (gy (·.1)), bind_ok, rd_eq_ok.2 (gx (·.1)), bind_ok]
      by_cases hlt : lt y.1 x.1 = true
      · rw [if_pos hlt, sw, bind_ok, sw, bind_ok]
        refine ⟨[y, x], rfl, ?_, ?_⟩
        · simpa using List.Perm.swap x y []
        · simp [Sorted, le, h.asymm hlt]
      · rw [if_neg hlt]
        refine ⟨[x, y], by simp, by simp, ?_⟩
        simpa [Sorted, le] using hlt
    · rw [if_neg h1]
      by_cases h2 : L.length > 0 ∧ R.length > 0
      · rw [if_pos h2]
        -- both branches produce a split (a, b) of the blocks with a pivot
        have key : ∃ a b : Nat, ∃ t : κ, a ≤ L.length ∧ b ≤ R.length ∧
            (if L.length ≥ R.length then (do
                let rigMid ← lowerBoundAt dbg lt ((P ++ L ++ R ++ S).map (·.1)) ((P.length + (P.length + L.length)) / 2) R.length (P.length + L.length) (P.length + L.length + R.length)
                Except.ok ((P.length + (P.length + L.length)) / 2, rigMid) : M (Nat × Nat))
              else (do
                let lefMid ← lowerBoundAt dbg lt ((P ++ L ++ R ++ S).map (·.1)) ((P.length + L.length + (P.length + L.length + R.length)) / 2) L.length P.length (P.length + L.length)
                Except.ok (lefMid, (P.length + L.length + (P.length + L.length + R.length)) / 2))) = .ok (P.length + a, P.length + L.length + b) ∧
            (∀ p ∈ L.take a, le lt p.1 t) ∧ (∀ p ∈ L.drop a, le lt t p.1) ∧ (∀ p ∈ R.take b, le lt p.1 t) ∧ (∀ p ∈ R.drop b, le lt t p.1) ∧
            a + b < L.length + R.length ∧ 0 < a + b := by
          have pieces : ∀ {l : List (κ × α)} (hs : Sorted lt l) (k : Nat) (hk : k < l.length),
              (∀ p ∈ l.take k, le lt p.1 l[k].1) ∧ (∀ p ∈ l.drop k, le lt l[k].1 p.1) := by
            intro l hs k hk
            refine ⟨?_, ?_⟩
            · intro p hp
              obtain ⟨i, hi, rfl⟩ := List.mem_iff_getElem.1 hp
              simp only [List.length_take] at hi
              rw [List.getElem_take]; exact sorted_get h hs (by omega) hk
            · intro p hp
              obtain ⟨i, hi, rfl⟩ := List.mem_iff_getElem.1 hp
              simp only [List.length_drop] at hi
              rw [List.getElem_drop]; exact sorted_get h hs (by omega) (by omega)
          by_cases hge : L.length ≥ R.length
          · rw [if_pos hge]
            have ha : (P.length + (P.length + L.length)) / 2 = P.length + L.length / 2 := by omega
            have hal : L.length / 2 < L.length := by omega
            have ht : ((P ++ L ++ R ++ S).map (·.1))[P.length + L.length / 2]? = some L[L.length / 2].1 := by
              rw [List.getElem?_map, get_left P L R S _ hal]; rfl
            obtain ⟨b, hb, e, h3, h4⟩ := lowerBoundAt_block dbg lt h (P ++ L) R S hR (P.length + L.length / 2) _ ht R.length (Nat.le_refl _)
            simp only [List.length_append] at e
            obtain ⟨p1, p2⟩ := pieces hL (L.length / 2) hal
            refine ⟨L.length / 2, b, _, by omega, hb, ?_, p1, p2, fun p hp => h.le_of_lt (h3 p hp), h4, by omega, by omega⟩
            rw [ha, e, bind_ok]
          · rw [if_neg hge]
            have hb : (P.length + L.length + (P.length + L.length + R.length)) / 2 = P.length + L.length + R.length / 2 := by omega
            have hbl : R.length / 2 < R.length := by omega
            have ht : ((P ++ L ++ R ++ S).map (·.1))[P.length + L.length + R.length / 2]? = some R[R.length / 2].1 := by
              rw [List.getElem?_map, get_right P L R S _ hbl]; rfl
            have ht' : ((P ++ L ++ (R ++ S)).map (·.1))[P.length + L.length + R.length / 2]? = some R[R.length / 2].1 := by
              rw [← List.append_assoc]; exact ht
            obtain ⟨a, ha, e, h3, h4⟩ := lowerBoundAt_block dbg lt h P L (R ++ S) hL (P.length + L.length + R.length / 2) _ ht' L.length (Nat.le_refl _)
            rw [← List.append_assoc] at e
            obtain ⟨p1, p2⟩ := pieces hR (R.length / 2) hbl
            refine ⟨a, R.length / 2, _, ha, by omega, ?_, fun p hp => h.le_of_lt (h3 p hp), h4, p1, p2, by omega, by omega⟩
            rw [hb, e, bind_ok]
        obtain ⟨a, b, t, ha, hb, e, l1, l2, r1, r2, hlt, hpos⟩ := key
        rw [e, bind_ok]
        simp only
        have hL' : L = L.take a ++ L.drop a := (List.take_append_drop a L).symm
        have hR' : R = R.take b ++ R.drop b := (List.take_append_drop b R).symm
        have hla : (L.take a).length = a := by simp; omega
        have hlb : (R.take b).length = b := by simp; omega
        have rot : ∀ {β : Type} (f : κ × α → β), rotate ((P ++ L ++ R ++ S).map f) (P.length + a) (P.length + L.length) (P.length + L.length + b) =
            .ok ((P ++ L.take a ++ R.take b ++ (L.drop a ++ R.drop b ++ S)).map f) := by
          intro β f
          have e0 : P ++ L ++ R ++ S = (P ++ L.take a) ++ L.drop a ++ R.take b ++ (R.drop b ++ S) := by
            simp only [List.append_assoc]
            rw [← List.append_assoc (L.take a), List.take_append_drop, ← List.append_assoc (R.take b), List.take_append_drop]
          have := rotate_blocks ((P ++ L.take a).map f) ((L.drop a).map f) ((R.take b).map f) ((R.drop b ++ S).map f)
          simp only [List.length_map, List.length_append, hla, hlb, List.length_drop, ← List.map_append] at this
          rw [show P.length + a + (L.length - a) = P.length + L.length by omega] at this
          rw [e0, this]
          congr 1
          simp [List.append_assoc]
        rw [rot, bind_ok, rot, bind_ok]
        rw [show P.length + a + (P.length + L.length + b) - (P.length + L.length) = P.length + a + b by omega]
        obtain ⟨M1, m1, m2, m3⟩ := ih P (L.take a) (R.take b) (L.drop a ++ R.drop b ++ S) (by omega)
          (hL.sublist (List.take_sublist _ _)) (hR.sublist (List.take_sublist _ _))
        rw [hla, hlb] at m1
        rw [m1, bind_ok]
        have hM1 : M1.length = a + b := by rw [m2.length_eq]; simp [hla, hlb]
        obtain ⟨M2, n1, n2, n3⟩ := ih (P ++ M1) (L.drop a) (R.drop b) S (by simp; omega)
          (hL.sublist (List.drop_sublist _ _)) (hR.sublist (List.drop_sublist _ _))
        simp only [List.length_append, List.length_drop, hM1] at n1
        refine ⟨M1 ++ M2, ?_, ?_, ?_⟩
        · rw [show P ++ M1 ++ (L.drop a ++ R.drop b ++ S) = P ++ M1 ++ L.drop a ++ R.drop b ++ S by simp [List.append_assoc]]
          rw [show P.length + (a + b) + (L.length - a) = P.length + L.length + b by omega,
            show P.length + L.length + b + (R.length - b) = P.length + L.length + R.length by omega] at n1
          rw [show P.length + a + b = P.length + (a + b) by omega]
          simp only at n1 ⊢
          rw [n1]; simp [List.append_assoc]
        · calc (M1 ++ M2).Perm ((L.take a ++ R.take b) ++ (L.drop a ++ R.drop b)) := m2.append n2
            _ = L.take a ++ (R.take b ++ L.drop a) ++ R.drop b := by simp [List.append_assoc]
            _ |>.Perm (L.take a ++ (L.drop a ++ R.take b) ++ R.drop b) :=
                List.Perm.append_right _ (List.Perm.append_left _ List.perm_append_comm)
            _ = L ++ R := by
                rw [← List.append_assoc, List.take_append_drop, List.append_assoc, List.take_append_drop]
        · refine List.pairwise_append.2 ⟨m3, n3, ?_⟩
          intro p hp q hq
          have hp' := m2.mem_iff.1 hp
          have hq' := n2.mem_iff.1 hq
          have u : le lt p.1 t := by
            rcases List.mem_append.1 hp' with e | e
            · exact l1 p e
            · exact r1 p e
          have w : le lt t q.1 := by
            rcases List.mem_append.1 hq' with e | e
            · exact l2 q e
            · exact r2 q e
          exact h.le_trans u w
      · rw [if_neg h2]
        rcases Nat.eq_zero_or_pos L.length with e | e
        · have : L = [] := List.length_eq_zero_iff.1 e
          subst this
          exact ⟨R, by simp, by simp, hR⟩
        · have : R = [] := List.length_eq_zero_iff.1 (by omega)
          subst this
          exact ⟨L, by simp, by simp, hL⟩

/-! ## Collected contents -/
section collect
variable [AddCommMonoid α]

/-- What a list of contributions means: an index occurring in it is stored, its value is the sum of its
contributions. -/
def collect (A : List (κ × α)) (k : κ) : Option α :=
  if k ∈ A.map (·.1) then some ((A.filter (fun p => decide (p.1 = k))).map (·.2)).sum else none

theorem collect_nil (k : κ) : collect ([] : List (κ × α)) k = none := by simp [collect]

theorem collect_perm {A B : List (κ × α)} (h : A.Perm B) : collect A = collect B := by
  funext k
  unfold collect
  have h1 : (k ∈ A.map (·.1)) ↔ (k ∈ B.map (·.1)) := (h.map _).mem_iff
  have h2 : ((A.filter (fun p => decide (p.1 = k))).map (·.2)).sum = ((B.filter (fun p => decide (p.1 = k))).map (·.2)).sum :=
    ((h.filter _).map _).sum_eq
  by_cases hk : k ∈ A.map (·.1)
  · rw [if_pos hk, if_pos (h1.1 hk), h2]
  · rw [if_neg hk, if_neg (fun c => hk (h1.2 c))]

theorem collect_append_single (A : List (κ × α)) (k : κ) (v : α) (j : κ) :
    collect (A ++ [(k, v)]) j = if j = k then some ((collect A k).getD 0 + v) else collect A j := by
  unfold collect
  by_cases e : j = k
  · subst e
    rw [if_pos rfl, if_pos (by simp)]
    by_cases hm : j ∈ A.map (·.1)
    · rw [if_pos hm]; simp [List.filter_append, List.filter_cons]
    · rw [if_neg hm]
      have : A.filter (fun p => decide (p.1 = j)) = [] := by
        rw [List.filter_eq_nil_iff]; intro p hp; simp; intro hpj; exact hm (List.mem_map.2 ⟨p, hp, hpj⟩)
      simp [List.filter_append, List.filter_cons, this]
  · rw [if_neg e]
    have : (j ∈ (A ++ [(k, v)]).map (·.1)) ↔ j ∈ A.map (·.1) := by simp [e]
    have h2 : (A ++ [(k, v)]).filter (fun p => decide (p.1 = j)) = A.filter (fun p => decide (p.1 = j)) := by
      simp [List.filter_append, List.filter_cons, show ¬ k = j from fun c => e c.symm]
    by_cases hm : j ∈ A.map (·.1)
    · rw [if_pos hm, if_pos (this.2 hm), h2]
    · rw [if_neg hm, if_neg (fun c => hm (this.1 c))]

theorem collect_eq_none (A : List (κ × α)) (k : κ) : collect A k = none ↔ k ∉ A.map (·.1) := by
  unfold collect; split <;> simp_all

/-- In a strictly sorted list each stored index occurs once. -/
theorem collect_of_strict {lt : κ → κ → Bool} (h : KeyOrd lt) {A B : List (κ × α)} {k : κ} {v : α} (hs : Strict lt (A ++ (k, v) :: B)) (j : κ) :
    collect (A ++ (k, v) :: B) j = if j = k then some v else collect (A ++ B) j := by
  have hne : ∀ p ∈ A ++ B, p.1 ≠ k := by
    intro p hp e
    have hs' := List.pairwise_append.1 hs
    rcases List.mem_append.1 hp with hp | hp
    · have := hs'.2.2 p hp (k, v) (by simp)
      rw [e, h.irrefl] at this; simp at this
    · have := (List.pairwise_cons.1 hs'.2.1).1 p hp
      rw [e, h.irrefl] at this; simp at this
  have hk : collect (A ++ B) k = none := by
    rw [collect_eq_none]; intro hm
    obtain ⟨p, hp, e⟩ := List.mem_map.1 hm
    exact hne p hp e
  have hp : (A ++ (k, v) :: B).Perm ((A ++ B) ++ [(k, v)]) := by
    rw [List.append_assoc]
    exact List.Perm.append_left _ (List.perm_append_singleton _ _).symm
  rw [collect_perm hp, collect_append_single]
  by_cases e : j = k
  · subst e; rw [if_pos rfl, if_pos rfl, hk]; simp
  · rw [if_neg e, if_neg e]

theorem collect_mem_strict {lt : κ → κ → Bool} (h : KeyOrd lt) {A : List (κ × α)} (hs : Strict lt A) (k : κ) (v : α) :
    collect A k = some v ↔ (k, v) ∈ A := by
  constructor
  · intro hc
    have hm : k ∈ A.map (·.1) := by
      by_contra hm; rw [(collect_eq_none A k).2 hm] at hc; simp at hc
    obtain ⟨⟨a, w⟩, hp, e⟩ := List.mem_map.1 hm
    simp only at e; subst e
    obtain ⟨A1, A2, rfl⟩ := List.append_of_mem hp
    rw [collect_of_strict h hs, if_pos rfl] at hc
    cases hc; exact hp
  · intro hp
    obtain ⟨A1, A2, rfl⟩ := List.append_of_mem hp
    rw [collect_of_strict h hs, if_pos rfl]

/-- The arrays hold the pairs `A` in their first cells. -/
def Holds (idx : List κ) (val : List α) (A : List (κ × α)) : Prop :=
  idx.take A.length = A.map (·.1) ∧ val.take A.length = A.map (·.2)

omit [DecidableEq κ] [AddCommMonoid α] in
theorem Holds.len {idx : List κ} {val : List α} {A} (h : Holds idx val A) : A.length ≤ idx.length ∧ A.length ≤ val.length := by
  have h1 := congrArg List.length h.1; have h2 := congrArg List.length h.2
  simp at h1 h2; omega

omit [DecidableEq κ] [AddCommMonoid α] in
theorem Holds.idxAt {idx : List κ} {val : List α} {A} (h : Holds idx val A) {n : Nat} (hn : n < A.length) : idx[n]? = some A[n].1 := by
  have := congrArg (fun l => l[n]?) h.1
  simpa [List.getElem?_take, hn] using this

omit [DecidableEq κ] [AddCommMonoid α] in
theorem Holds.valAt {idx : List κ} {val : List α} {A} (h : Holds idx val A) {n : Nat} (hn : n < A.length) : val[n]? = some A[n].2 := by
  have := congrArg (fun l => l[n]?) h.2
  simpa [List.getElem?_take, hn] using this

omit [DecidableEq κ] in
theorem take_set_snoc {β : Type} (l D : List β) (x : β) (h : l.take D.length = D) (hl : D.length < l.length) :
    (l.set D.length x).take (D ++ [x]).length = D ++ [x] := by
  rw [List.length_append, List.length_singleton, List.take_add_one, List.take_set_of_le (Nat.le_refl _), h]
  simp [hl]

/-- The duplicate-summing loop. -/
theorem sum_spec (dbg : Bool) (lt : κ → κ → Bool) (h : KeyOrd lt) (idx : List κ) (val : List α) (A : List (κ × α)) (hA : Holds idx val A)
    (hs : Sorted lt A) (hpos : 0 < A.length) :
    ∃ s D, loop (fun k s => sumStep dbg (k + 1) s) (A.length - 1) (idx, val, 0) = .ok s ∧ s.1.length = idx.length ∧ s.2.1.length = val.length ∧
      Holds s.1 s.2.1 D ∧ D.length = s.2.2 + 1 ∧ D.length ≤ A.length ∧ Strict lt D ∧ collect D = collect A ∧ (∀ p ∈ D, p.1 ∈ A.map (·.1)) := by
  obtain ⟨hi, hv⟩ := hA.len
  obtain ⟨s, hloop, D0, p, c1, c2, c3, c4, c5, c6, c7, c8, c9⟩ := loop_inv (f := fun k s => sumStep dbg (k + 1) s) (n := A.length - 1) (s := (idx, val, 0))
    (fun k s => ∃ (D0 : List (κ × α)) (p : κ × α), s.2.2 = D0.length ∧ D0.length ≤ k ∧ s.1.length = idx.length ∧ s.2.1.length = val.length ∧
      Holds s.1 s.2.1 (D0 ++ [p]) ∧ (∀ j, k < j → j < A.length → s.1[j]? = idx[j]? ∧ s.2.1[j]? = val[j]?) ∧
      Strict lt (D0 ++ [p]) ∧ (collect (D0 ++ [p]) = collect (A.take (k + 1)) ∧ ∃ q, A[k]? = some q ∧ q.1 = p.1) ∧
      (∀ q ∈ D0 ++ [p], q.1 ∈ A.map (·.1)))
    (by
      refine ⟨[], A[0], rfl, Nat.le_refl _, rfl, rfl, ?_, fun j _ _ => ⟨rfl, rfl⟩, by simp [Strict], ⟨?_, A[0], by simp [hpos], rfl⟩, ?_⟩
      · have a := hA.idxAt hpos; have b := hA.valAt hpos
        constructor
        · simp [List.take_add_one, a]
        · simp [List.take_add_one, b]
      · simp [List.take_add_one, hpos]
      · intro q hq; simp at hq; subst hq; exact List.mem_map.2 ⟨A[0], List.getElem_mem hpos, rfl⟩)
    (by
      rintro k ⟨ix, vl, f⟩ hk ⟨D0, p, g1, g2, g3, g4, g5, g6, g7, ⟨g8, q0, g9, g10⟩, g11⟩
      simp only at g1 g3 g4 g5 g6
      subst g1
      have hk1 : k + 1 < A.length := by omega
      have n1 := (g6 (k + 1) (by omega) hk1).1; have n2 := (g6 (k + 1) (by omega) hk1).2
      rw [hA.idxAt hk1] at n1; rw [hA.valAt hk1] at n2
      have lastI : ix[D0.length]? = some p.1 := by
        have := g5.idxAt (n := D0.length) (by simp); simpa using this
      have lastV : vl[D0.length]? = some p.2 := by
        have := g5.valAt (n := D0.length) (by simp); simpa using this
      have htk : A.take (k + 1 + 1) = A.take (k + 1) ++ [A[k + 1]] := by
        rw [List.take_add_one, List.getElem?_eq_getElem hk1]; rfl
      have hle : le lt p.1 A[k + 1].1 := by
        have hk0 : k < A.length := by omega
        rw [List.getElem?_eq_getElem hk0] at g9; cases g9
        rw [← g10]; exact sorted_get h hs (by omega) hk1
      have hmemA : A[k + 1].1 ∈ A.map (·.1) := List.mem_map.2 ⟨_, List.getElem_mem hk1, rfl⟩
      have cs : ∀ (B : List (κ × α)) j, collect (B ++ [A[k + 1]]) j =
          if j = A[k + 1].1 then some ((collect B A[k + 1].1).getD 0 + A[k + 1].2) else collect B j :=
        fun B j => collect_append_single B A[k + 1].1 A[k + 1].2 j
      simp only [sumStep, rd_eq_ok.2 lastI, rd_eq_ok.2 n1, bind_ok]
      by_cases hx : p.1 ≠ A[k + 1].1
      · rw [if_pos hx]
        have hlt : lt p.1 A[k + 1].1 = true := by
          rcases h.le_iff.1 hle with e | e
          · exact e
          · exact absurd e hx
        have hstrict : Strict lt (D0 ++ [p] ++ [A[k + 1]]) := by
          refine List.pairwise_append.2 ⟨g7, by simp, ?_⟩
          intro a ha b hb
          simp only [List.mem_singleton] at hb; subst hb
          rcases List.mem_append.1 ha with e | e
          · have := (List.pairwise_append.1 g7).2.2 a e p (by simp)
            exact h.trans _ _ _ this hlt
          · simp only [List.mem_singleton] at e; subst e; exact hlt
        have hcol : collect (D0 ++ [p] ++ [A[k + 1]]) = collect (A.take (k + 1 + 1)) := by
          funext j
          rw [htk, cs, cs, g8]
        have hlenD : (D0 ++ [p]).length = D0.length + 1 := by simp
        have hmem : ∀ q ∈ D0 ++ [p] ++ [A[k + 1]], q.1 ∈ A.map (·.1) := by
          intro q hq
          rcases List.mem_append.1 hq with e | e
          · exact g11 q e
          · simp only [List.mem_singleton] at e; subst e; exact hmemA
        by_cases hf : D0.length + 1 ≠ k + 1
        · rw [if_pos hf, wr_ok (by omega), bind_ok, rd_eq_ok.2 n2, bind_ok, wr_ok (by omega), bind_ok]
          refine ⟨_, rfl, D0 ++ [p], A[k + 1], by simp, by simp; omega, by simpa using g3, by simpa using g4, ?_, ?_, hstrict,
            ⟨hcol, A[k + 1], by simp [hk1], rfl⟩, hmem⟩
          · constructor
            · have := take_set_snoc ix ((D0 ++ [p]).map (·.1)) A[k + 1].1 (by rw [List.length_map]; exact g5.1) (by simp; omega)
              simpa using this
            · have := take_set_snoc vl ((D0 ++ [p]).map (·.2)) A[k + 1].2 (by rw [List.length_map]; exact g5.2) (by simp; omega)
              simpa using this
          · intro j hj1 hj2
            have := g6 j (by omega) hj2
            simp only
            rw [List.getElem?_set_ne (by omega), List.getElem?_set_ne (by omega)]
            exact this
        · rw [if_neg hf]
          refine ⟨_, rfl, D0 ++ [p], A[k + 1], by simp, by simp; omega, g3, g4, ?_, fun j hj1 hj2 => g6 j (by omega) hj2, hstrict,
            ⟨hcol, A[k + 1], by simp [hk1], rfl⟩, hmem⟩
          have hDk : D0.length + 1 = k + 1 := by omega
          constructor
          · rw [List.length_append, hlenD, List.length_singleton, List.take_add_one, hDk, n1]
            have := g5.1; rw [hlenD, hDk] at this
            rw [this]; simp
          · rw [List.length_append, hlenD, List.length_singleton, List.take_add_one, hDk, n2]
            have := g5.2; rw [hlenD, hDk] at this
            rw [this]; simp
      · rw [if_neg hx]
        have hx' : p.1 = A[k + 1].1 := by simpa using hx
        rw [rd_eq_ok.2 lastV, bind_ok, rd_eq_ok.2 n2, bind_ok, wr_ok (by have := g5.len.2; simp at this; omega), bind_ok]
        refine ⟨_, rfl, D0, (p.1, p.2 + A[k + 1].2), rfl, by omega, g3, by simpa using g4, ?_, ?_, ?_, ⟨?_, A[k + 1], by simp [hk1], hx'.symm⟩, ?_⟩
        · constructor
          · have := g5.1; simp only [List.length_append, List.length_singleton, List.map_append, List.map_cons, List.map_nil] at this ⊢
            exact this
          · have h5 := g5.2
            simp only [List.length_append, List.length_singleton, List.map_append, List.map_cons, List.map_nil] at h5 ⊢
            have hl : D0.length < vl.length := by have := g5.len.2; simp at this; omega
            have h6 : vl.take D0.length = D0.map (·.2) := by
              have := congrArg (fun l => l.take D0.length) h5
              simpa [List.take_take] using this
            rw [List.take_add_one, List.take_set_of_le (Nat.le_refl _), h6]
            simp [hl]
        · intro j hj1 hj2
          have := g6 j (by omega) hj2
          simp only
          rw [List.getElem?_set_ne (by omega)]
          exact this
        · have := List.pairwise_append.1 g7
          refine List.pairwise_append.2 ⟨this.1, by simp, ?_⟩
          intro a ha b hb
          simp only [List.mem_singleton] at hb; subst hb
          exact this.2.2 a ha p (by simp)
        · funext j
          rw [htk, cs, ← g8]
          have e1 := collect_of_strict h g7
          have hstr' : Strict lt (D0 ++ (p.1, p.2 + A[k + 1].2) :: []) := by
            have := List.pairwise_append.1 g7
            refine List.pairwise_append.2 ⟨this.1, by simp, ?_⟩
            intro a ha b hb
            simp only [List.mem_singleton] at hb; subst hb
            exact this.2.2 a ha p (by simp)
          have e2 := collect_of_strict h hstr' j
          have e3 : ∀ j, collect (D0 ++ [p]) j = if j = p.1 then some p.2 else collect (D0 ++ []) j := fun j => by
            have := collect_of_strict (A := D0) (B := []) (k := p.1) (v := p.2) h g7 j
            exact this
          rw [e2, e3, e3, ← hx']
          by_cases e : j = p.1
          · rw [if_pos e, if_pos e, if_pos rfl]; rfl
          · rw [if_neg e, if_neg e, if_neg e]
        · intro q hq
          rcases List.mem_append.1 hq with e | e
          · exact g11 q (List.mem_append.2 (Or.inl e))
          · simp only [List.mem_singleton] at e; subst e; exact g11 p (by simp))
  refine ⟨s, D0 ++ [p], hloop, c3, c4, c5, by simp [c1], ?_, c7, ?_, c9⟩
  · simp; omega
  · rw [c8.1, show A.length - 1 + 1 = A.length by omega, List.take_length]

/-- What `std::sort` is assumed to do. -/
def SortOk (lt : κ → κ → Bool) (srt : List (κ × α) → List (κ × α)) : Prop := ∀ l, (srt l).Perm l ∧ Sorted lt (srt l)

end collect

end Ublas.Coo
