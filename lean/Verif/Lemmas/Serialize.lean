import Verif.Spec.Serialize
/-! # Composing saving and loading -/
namespace Ublas
namespace Ser
variable {R σ τ α β γ : Type}

/-- Saving with `m` from `x` writes `out` and returns `b`; loading `out` with `m'` turns `y` into `z` and returns the same. -/
structure Tr (m m' : S R σ β) (x : σ) (out : List (Tok R)) (b : β) (y z : σ) : Prop where
  save : ∀ t, m x ⟨false, t⟩ = .ok b x ⟨false, t ++ out⟩
  load : ∀ t, m' y ⟨true, out ++ t⟩ = .ok b z ⟨true, t⟩

theorem bind_def (m : S R σ β) (f : β → S R σ γ) (s : σ) (ar : Ar R) : (m >>= f) s ar = match m s ar with
  | .ok b s' ar' => f b s' ar'
  | .thrown e s' => .thrown e s' := rfl

theorem pure_def (b : β) (s : σ) (ar : Ar R) : (pure b : S R σ β) s ar = .ok b s ar := rfl

theorem Tr.pure (b : β) (x y : σ) : Tr (Pure.pure b : S R σ β) (Pure.pure b) x [] b y y :=
  ⟨fun t => by simp [pure_def], fun t => by simp [pure_def]⟩

theorem Tr.bind {m m' : S R σ β} {f f' : β → S R σ γ} {x y z w : σ} {o o' : List (Tok R)} {b : β} {c : γ} (h : Tr m m' x o b y z) (h' : Tr (f b) (f' b) x o' c z w) :
    Tr (m >>= f) (m' >>= f') x (o ++ o') c y w :=
  ⟨fun t => by rw [bind_def, h.save]; dsimp only; rw [h'.save, List.append_assoc], fun t => by rw [bind_def, List.append_assoc, h.load]; dsimp only; rw [h'.load]⟩

theorem Tr.local (n : σ → Nat) (x y : σ) : Tr (ampLocal n : S R σ Nat) (ampLocal n) x [.num (n x)] (n x) y y := ⟨fun t => rfl, fun t => rfl⟩
theorem Tr.num (x y : Nat) : Tr (ampN : S R Nat Unit) ampN x [.num x] () y x := ⟨fun t => rfl, fun t => rfl⟩
theorem Tr.flag (x y : Bool) : Tr (ampB : S R Bool Unit) ampB x [.flag x] () y x := ⟨fun t => rfl, fun t => rfl⟩
theorem Tr.elt (x y : R) : Tr (ampE : S R R Unit) ampE x [.elt x] () y x := ⟨fun t => rfl, fun t => rfl⟩

theorem Tr.member {get : σ → τ} {set : σ → τ → σ} {m m' : S R τ β} {x y : σ} {z : τ} {o : List (Tok R)} {b : β} (h : Tr m m' (get x) o b (get y) z) (hs : set x (get x) = x) :
    Tr (member get set m) (Ser.member get set m') x o b y (set y z) :=
  ⟨fun t => by simp only [Ser.member, h.save, hs], fun t => by simp only [Ser.member, h.load]⟩

theorem Tr.whenLoading {m m' : S R σ Unit} {x y z : σ} (h : ∀ t, m' y ⟨true, t⟩ = .ok () z ⟨true, t⟩) : Tr (whenLoading m) (Ser.whenLoading m') x [] () y z :=
  ⟨fun t => by simp [Ser.whenLoading], fun t => by simp [Ser.whenLoading, h]⟩

theorem Tr.upd (f f' : σ → σ) (x y : σ) : Tr (Ser.whenLoading (upd f) : S R σ Unit) (Ser.whenLoading (Ser.upd f')) x [] () y (f' y) := Tr.whenLoading fun _ => rfl

theorem Tr.test {f f' : σ → M Unit} {x y : σ} (hx : f x = .ok ()) (hy : f' y = .ok ()) : Tr (Ser.test f : S R σ Unit) (Ser.test f') x [] () y y :=
  ⟨fun t => by simp [Ser.test, hx], fun t => by simp [Ser.test, hy]⟩

/-- An element serializer that restores `a` over anything. -/
def Good (f f' : S R α Unit) (a : α) : Prop := ∃ o, ∀ b, Tr f f' a o () b a

theorem good_num (a : Nat) : Good (ampN : S R Nat Unit) ampN a := ⟨_, fun b => Tr.num a b⟩
theorem good_elt (a : R) : Good (ampE : S R R Unit) ampE a := ⟨_, fun b => Tr.elt a b⟩

theorem tr_cell {f f' : S R α Unit} {x y : List α} {k : Nat} {a b : α} {o : List (Tok R)} (hx : x[k]? = some a) (hy : y[k]? = some b) (h : Tr f f' a o () b a) :
    Tr (cell k f) (cell k f') x o () y (y.set k a) := by
  constructor
  · intro t
    have e : x.set k a = x := by
      apply List.ext_getElem?; intro i; rw [List.getElem?_set]; split
      · next h => subst h; split <;> simp_all
      · rfl
    simp only [cell, hx, h.save, e]
  · intro t; simp only [cell, hy, h.load]

/-- Cells k … k + n - 1 of `y` replaced by those of `x`. -/
def splice (x y : List α) (k n : Nat) : List α := (List.range y.length).filterMap fun i => if k ≤ i ∧ i < k + n then x[i]? else y[i]?

theorem tr_arrayFrom {f f' : S R α Unit} {x : List α} (h : ∀ a ∈ x, Good f f' a) : ∀ (n k : Nat), k + n ≤ x.length → ∃ o, ∀ y : List α, k + n ≤ y.length →
    ∃ z, Tr (arrayFrom f k n) (arrayFrom f' k n) x o () y z ∧ z.length = y.length ∧ ∀ i, z[i]? = if k ≤ i ∧ i < k + n then x[i]? else y[i]? := by
  intro n
  induction n with
  | zero => intro k _; exact ⟨[], fun y _ => ⟨y, Tr.pure () x y, rfl, fun i => by rw [if_neg (by omega)]⟩⟩
  | succ n ih =>
    intro k hk
    have hx : x[k]? = some x[k] := List.getElem?_eq_getElem (by omega)
    obtain ⟨o1, h1⟩ := h x[k] (List.getElem_mem _)
    obtain ⟨o2, h2⟩ := ih (k + 1) (by omega)
    refine ⟨o1 ++ o2, fun y hy => ?_⟩
    have hyk : y[k]? = some y[k] := List.getElem?_eq_getElem (by omega)
    obtain ⟨z, hz, hl, hg⟩ := h2 (y.set k x[k]) (by rw [List.length_set]; omega)
    refine ⟨z, Tr.bind (tr_cell hx hyk (h1 y[k])) hz, by rw [hl, List.length_set], fun i => ?_⟩
    rw [hg i, List.getElem?_set]
    by_cases e : k = i
    · subst e
      rw [if_neg (by omega), if_pos rfl, if_pos (by omega), if_pos (by omega), hx]
    · rw [if_neg e]
      by_cases c : k + 1 ≤ i ∧ i < k + 1 + n
      · rw [if_pos c, if_pos (by omega)]
      · rw [if_neg c, if_neg (by omega)]

theorem tr_array_all {f f' : S R α Unit} {x : List α} (h : ∀ a ∈ x, Good f f' a) : ∃ o, ∀ y : List α, y.length = x.length →
    Tr (arrayFrom f 0 x.length) (arrayFrom f' 0 x.length) x o () y x := by
  obtain ⟨o, ho⟩ := tr_arrayFrom h x.length 0 (by omega)
  refine ⟨o, fun y hy => ?_⟩
  obtain ⟨z, hz, hl, hg⟩ := ho y (by omega)
  have e : z = x := by
    apply List.ext_getElem?; intro i; rw [hg i]
    by_cases c : i < x.length
    · rw [if_pos ⟨Nat.zero_le _, by omega⟩]
    · rw [if_neg (by omega), List.getElem?_eq_none (by omega), List.getElem?_eq_none (by omega)]
  rw [e] at hz; exact hz

theorem arrayResize_length (junk : Nat → α) (d : List α) (n : Nat) : (Dense.arrayResize junk d n).length = n := by
  unfold Dense.arrayResize; split <;> simp_all

theorem good_unbounded {f f' : S R α Unit} {x : List α} (junk junk' : Nat → α) (h : ∀ a ∈ x, Good f f' a) : Good (unbounded f junk) (unbounded f' junk') x := by
  obtain ⟨o, ho⟩ := tr_array_all h
  apply Exists.intro
  intro y
  exact Tr.bind (Tr.local List.length x y) (Tr.bind (Tr.upd _ _ x y) (ho _ (arrayResize_length _ _ _)))

theorem tr_builtin {f f' : S R α Unit} {x : List α} (h : ∀ a ∈ x, Good f f' a) (k N : Nat) (hk : k + N ≤ x.length) : ∃ o, ∀ y : List α, k + N ≤ y.length →
    ∃ z, Tr (builtin f k N) (builtin f' k N) x o () y z ∧ z.length = y.length ∧ ∀ i, z[i]? = if k ≤ i ∧ i < k + N then x[i]? else y[i]? := by
  obtain ⟨o, ho⟩ := tr_arrayFrom h N k hk
  refine ⟨[.num N] ++ ([] ++ o), fun y hy => ?_⟩
  obtain ⟨z, hz, hr⟩ := ho y hy
  refine ⟨z, Tr.bind (Tr.local (fun _ => N) x y) (Tr.bind (Tr.whenLoading (z := y) fun t => ?_) hz), hr⟩
  simp [Ser.test]

theorem tr_rows {f f' : S R α Unit} {x : List α} (h : ∀ a ∈ x, Good f f' a) (C : Nat) : ∀ (n k : Nat), (k + n) * C ≤ x.length → ∃ o, ∀ y : List α, (k + n) * C ≤ y.length →
    ∃ z, Tr (rows f C k n) (rows f' C k n) x o () y z ∧ z.length = y.length ∧ ∀ i, z[i]? = if k * C ≤ i ∧ i < (k + n) * C then x[i]? else y[i]? := by
  intro n
  induction n with
  | zero => intro k _; exact ⟨[], fun y _ => ⟨y, Tr.pure () x y, rfl, fun i => by rw [if_neg (by rw [Nat.add_zero]; omega)]⟩⟩
  | succ n ih =>
    intro k hk
    have e1 : (k + 1) * C = k * C + C := by rw [Nat.add_mul, Nat.one_mul]
    have e2 : (k + (n + 1)) * C = (k + 1 + n) * C := by rw [show k + (n + 1) = k + 1 + n by omega]
    have e3 : (k + 1) * C ≤ (k + 1 + n) * C := Nat.mul_le_mul_right _ (by omega)
    obtain ⟨o1, h1⟩ := tr_builtin h (k * C) C (by omega)
    obtain ⟨o2, h2⟩ := ih (k + 1) (by omega)
    refine ⟨o1 ++ o2, fun y hy => ?_⟩
    obtain ⟨z1, hz1, hl1, hg1⟩ := h1 y (by omega)
    obtain ⟨z, hz, hl, hg⟩ := h2 z1 (by omega)
    refine ⟨z, Tr.bind hz1 hz, by omega, fun i => ?_⟩
    rw [hg i, hg1 i]
    by_cases c : (k + 1) * C ≤ i ∧ i < (k + 1 + n) * C
    · rw [if_pos c, if_pos (by omega)]
    · rw [if_neg c]
      by_cases c' : k * C ≤ i ∧ i < k * C + C
      · rw [if_pos c', if_pos (by omega)]
      · rw [if_neg c', if_neg (by omega)]

theorem good_pair {f f' : S R α Unit} {p : Nat × α} (h : Good f f' p.2) : Good (pair f) (pair f') p := by
  obtain ⟨o, ho⟩ := h
  apply Exists.intro
  intro q
  exact Tr.bind (Tr.member (Tr.num p.1 q.1) rfl) (Tr.member (ho q.2) rfl)

theorem roundtrips_of_good {f f' : S R σ Unit} {x : σ} (h : Good f f' x) : RoundTrips f f' (fun _ => True) x := by
  obtain ⟨o, ho⟩ := h
  exact ⟨o, (ho x).save, fun y _ => (ho y).load⟩

end Ser
end Ublas
