import Verif.Spec.ExcStorage
namespace Ublas.Exc
open Storage (Op UArr setVar)
variable {α β γ : Type}

/-- Outcome predicate: normal end, exception, never undefined. -/
def wp (m : EM α β) (Q : β → St α → Prop) (T : St α → Prop) (s : St α) : Prop :=
  match m s with
  | .ok b s' => Q b s'
  | .threw s' => T s'
  | .ub => False

theorem wp_bind {m : EM α β} {f : β → EM α γ} {Q : γ → St α → Prop} {T : St α → Prop} {s : St α} (h : wp m (fun b s' => wp (f b) Q T s') T s) : wp (m >>= f) Q T s := by
  show wp (EM.bind m f) Q T s
  unfold wp EM.bind at *
  cases hm : m s with
  | ok b s' => rw [hm] at h; exact h
  | threw s' => rw [hm] at h; exact h
  | ub => rw [hm] at h; exact h

theorem wp_pure {b : β} {Q : β → St α → Prop} {T : St α → Prop} {s : St α} (h : Q b s) : wp (pure b : EM α β) Q T s := h

theorem wp_when {c : Prop} [Decidable c] {m : EM α Unit} {Q : Unit → St α → Prop} {T : St α → Prop} {s : St α} (h1 : c → wp m Q T s) (h2 : ¬ c → Q () s) : wp (whenE c m) Q T s := by
  unfold whenE
  by_cases h : c
  · rw [if_pos h]; exact h1 h
  · rw [if_neg h]; exact h2 h

theorem wp_mono {m : EM α β} {Q Q' : β → St α → Prop} {T T' : St α → Prop} {s : St α} (h : wp m Q T s) (hQ : ∀ b s', Q b s' → Q' b s') (hT : ∀ s', T s' → T' s') : wp m Q' T' s := by
  unfold wp at *
  cases hm : m s with
  | ok b s' => rw [hm] at h; exact hQ _ _ h
  | threw s' => rw [hm] at h; exact hT _ h
  | ub => rw [hm] at h; exact h

theorem wp_loop {f : Nat → EM α Unit} {T : St α → Prop} (I : Nat → St α → Prop) : ∀ n s, I 0 s → (∀ k s', k < n → I k s' → wp (f k) (fun _ => I (k + 1)) T s') → wp (loopE f n) (fun _ => I n) T s
  | 0, _, h0, _ => h0
  | n + 1, s, h0, hk => by
    unfold loopE
    apply wp_bind
    exact wp_mono (wp_loop I n s h0 fun k s' h hi => hk k s' (by omega) hi) (fun _ s' hi => hk n s' (by omega) hi) (fun _ h => h)

/-- The state without its clock. -/
def At (b : Nat → Option (List (Option α))) (v : Nat → Option UArr) (n : Nat) (s : St α) : Prop := s.blk = b ∧ s.var = v ∧ s.next = n

theorem setVar_same (f : Nat → Option β) (x : Nat) (a : Option β) : setVar f x a x = a := if_pos rfl
theorem setVar_ne (f : Nat → Option β) {x y : Nat} (a : Option β) (h : y ≠ x) : setVar f x a y = f y := if_neg h
theorem setVar_idem (f : Nat → Option β) (x : Nat) (a b : Option β) : setVar (setVar f x a) x b = setVar f x b := by
  funext y; by_cases h : y = x <;> simp [setVar, h]
theorem setVar_self (f : Nat → Option β) (x : Nat) (a : Option β) (h : f x = a) : setVar f x a = f := by
  funext y; by_cases e : y = x <;> simp [setVar, e, h]
theorem setVar_swap (f : Nat → Option β) {x y : Nat} (a b : Option β) (h : x ≠ y) : setVar (setVar f x a) y b = setVar (setVar f y b) x a := by
  funext z
  unfold setVar
  by_cases h1 : z = x
  · subst h1; rw [if_neg h, if_pos rfl, if_pos rfl]
  · rw [if_neg h1, if_neg h1]

variable {b : Nat → Option (List (Option α))} {v : Nat → Option UArr} {n : Nat} {s : St α} (E : Env α)

theorem wp_allocate (k : Nat) (h : At b v n s) :
    wp (allocate E k) (fun p s' => p = n ∧ ∃ c : List (Option α), c.length = k ∧ (E.trivC = true → ∃ L : List α, c = L.map some) ∧ At (setVar b n (some c)) v (n + 1) s') (fun s' => At b v n s' ∧ ∃ k, E.allocFails k = true ∨ E.elemFails k = true) s := by
  obtain ⟨h1, h2, h3⟩ := h
  unfold wp allocate
  by_cases hf : E.allocFails s.clock = true
  · rw [if_pos hf]; exact ⟨⟨h1, h2, h3⟩, _, .inl hf⟩
  · rw [if_neg hf]
    refine ⟨h3, (List.range k).map fun j => if E.trivC then some (E.junk s.clock j) else none, by simp, fun ht => ⟨(List.range k).map (E.junk s.clock), ?_⟩, ?_, h2, by simp [h3]⟩
    · simp [ht]
    · rw [h1, h3]

theorem wp_construct (p i : Nat) (x : α) (c : List (Option α)) (h : At b v n s) (hp : b p = some c) (hi : i < c.length) :
    wp (construct E p i x) (fun _ => At (setVar b p (some (c.set i (some x)))) v n) (fun s' => At b v n s' ∧ ∃ k, E.elemFails k = true) s := by
  obtain ⟨h1, h2, h3⟩ := h
  unfold wp construct
  by_cases hf : E.elemFails s.clock = true
  · rw [if_pos hf]; exact ⟨⟨h1, h2, h3⟩, _, hf⟩
  · rw [if_neg hf, h1, hp]
    dsimp only
    rw [if_pos hi]
    exact ⟨rfl, h2, h3⟩

theorem wp_read (p i : Nat) (L : List α) (h : At b v n s) (hp : b p = some (L.map some)) (hi : i < L.length) :
    wp (read (some p) i) (fun x s' => x = L[i] ∧ At b v n s') (fun _ => False) s := by
  obtain ⟨h1, h2, h3⟩ := h
  have : (L.map some)[i]? = some (some L[i]) := by simp [List.getElem?_eq_getElem hi]
  unfold wp read
  dsimp only
  rw [h1, hp]
  dsimp only
  rw [this]
  exact ⟨rfl, by first | exact h1 | rfl, h2, h3⟩

theorem wp_assignCell (p i : Nat) (x : α) (L : List α) (h : At b v n s) (hp : b p = some (L.map some)) (hi : i < L.length) :
    wp (assignCell E (some p) i x) (fun _ => At (setVar b p (some ((L.set i x).map some))) v n) (fun s' => At b v n s' ∧ ∃ k, E.elemFails k = true) s := by
  obtain ⟨h1, h2, h3⟩ := h
  have : (L.map some)[i]? = some (some L[i]) := by simp [List.getElem?_eq_getElem hi]
  unfold wp assignCell
  dsimp only
  rw [h1, hp]
  dsimp only
  rw [this]
  dsimp only
  by_cases hf : E.elemFails s.clock = true
  · rw [if_pos hf]; exact ⟨⟨by first | exact h1 | rfl, h2, h3⟩, _, hf⟩
  · rw [if_neg hf]
    exact ⟨by rw [List.map_set], h2, h3⟩

/-- Destroying constructed elements `0 … m - 1` of a block. -/
theorem wp_destroy (p m : Nat) (c : List (Option α)) (h : At b v n s) (hp : b p = some c) (hc : ∀ j, j < m → ∃ x, c[j]? = some (some x)) :
    wp (loopE (destroyCell p) m) (fun _ s' => ∃ c' : List (Option α), c'.length = c.length ∧ At (setVar b p (some c')) v n s') (fun _ => False) s := by
  have := wp_loop (f := destroyCell (α := α) p) (T := fun _ => False)
    (fun k s' => ∃ c' : List (Option α), c'.length = c.length ∧ (∀ j, k ≤ j → c'[j]? = c[j]?) ∧ At (setVar b p (some c')) v n s') m s
    ⟨c, rfl, fun _ _ => rfl, by rw [setVar_self _ _ _ hp]; exact h⟩ (fun k s' hk ⟨c', hl, hj, h1, h2, h3⟩ => by
      obtain ⟨x, hx⟩ := hc k hk
      unfold wp destroyCell
      rw [h1, setVar_same]
      dsimp only
      rw [hj k (Nat.le_refl k), hx]
      refine ⟨c'.set k none, by rw [List.length_set, hl], fun j hkj => ?_, ?_, h2, h3⟩
      · rw [List.getElem?_set_ne (by omega)]; exact hj j (by omega)
      · rw [setVar_idem])
  exact wp_mono this (fun _ s' ⟨c', hl, _, h⟩ => ⟨c', hl, h⟩) (fun _ h => h)

theorem wp_release (p : Nat) (L : List α) (h : At b v n s) (hp : b p = some (L.map some)) :
    wp (release E (some p) L.length) (fun _ => At (setVar b p none) v n) (fun _ => False) s := by
  unfold release
  apply wp_bind
  have hd : ∀ (s' : St α) (c : List (Option α)), c.length = L.length → At (setVar b p (some c)) v n s' → wp (deallocate p L.length) (fun _ => At (setVar b p none) v n) (fun _ => False) s' := by
    intro s' c hc ⟨h1, h2, h3⟩
    unfold wp deallocate
    rw [h1, setVar_same]
    dsimp only
    rw [if_pos hc]
    exact ⟨setVar_idem _ _ _ _, h2, h3⟩
  apply wp_when
  · intro _
    exact wp_mono (wp_destroy p L.length (L.map some) h hp fun j hj => ⟨L[j], by simp [List.getElem?_eq_getElem hj]⟩) (fun _ s' ⟨c, hc, h⟩ => hd s' c (by simpa using hc) h) (fun _ h => h)
  · intro _
    exact hd s (L.map some) (by simp) (by rw [setVar_self _ _ _ hp]; exact h)

/-- Constructing `m` values at `off …` in the block `d`; the value number `k` is computed by `r k`, which changes nothing. -/
theorem wp_fill (d off m : Nat) (c : List (Option α)) (g : Nat → α) (r : Nat → EM α α) (h : At b v n s) (hd : b d = some c) (hm : off + m ≤ c.length)
    (hr : ∀ k s' c', k < m → At (setVar b d (some c')) v n s' → wp (r k) (fun x s'' => x = g k ∧ At (setVar b d (some c')) v n s'') (fun _ => False) s') :
    wp (loopE (fun k => do
      let x ← r k
      construct E d (off + k) x) m)
    (fun _ s' => ∃ c' : List (Option α), c'.length = c.length ∧ (∀ j, j < off → c'[j]? = c[j]?) ∧ (∀ j, j < m → c'[off + j]? = some (some (g j))) ∧ At (setVar b d (some c')) v n s')
    (fun s' => (∃ c' : List (Option α), At (setVar b d (some c')) v n s') ∧ ∃ k, E.elemFails k = true) s := by
  apply wp_loop (fun k s' => ∃ c' : List (Option α), c'.length = c.length ∧ (∀ j, j < off → c'[j]? = c[j]?) ∧ (∀ j, j < k → c'[off + j]? = some (some (g j))) ∧ At (setVar b d (some c')) v n s')
  · exact ⟨c, rfl, fun _ _ => rfl, fun _ h => by omega, by rw [setVar_self _ _ _ hd]; exact h⟩
  · rintro k s' hk ⟨c', hl, hlo, hhi, hat⟩
    apply wp_bind
    refine wp_mono (hr k s' c' hk hat) ?_ (fun _ h => h.elim)
    rintro x s'' ⟨rfl, hat'⟩
    refine wp_mono (wp_construct E d (off + k) (g k) c' hat' (setVar_same _ _ _) (by omega)) ?_ ?_
    · intro _ s3 h3
      rw [setVar_idem] at h3
      refine ⟨c'.set (off + k) (some (g k)), by rw [List.length_set, hl], fun j hj => ?_, fun j hj => ?_, h3⟩
      · rw [List.getElem?_set_ne (by omega)]; exact hlo j hj
      · by_cases e : j = k
        · subst e; rw [List.getElem?_set_self (by omega)]
        · rw [List.getElem?_set_ne (by omega)]; exact hhi j (by omega)
    · rintro s3 ⟨h3, hk⟩
      exact ⟨⟨c', h3⟩, hk⟩

/-- `std::uninitialized_copy` / `_fill`. -/
theorem wp_uninit (d : Nat) (g : Nat → α) (r : Nat → EM α α) : ∀ (m : Nat) (c : List (Option α)) (s : St α), At b v n s → b d = some c → m ≤ c.length →
    (∀ k s' c', k < m → At (setVar b d (some c')) v n s' → wp (r k) (fun x s'' => x = g k ∧ At (setVar b d (some c')) v n s'') (fun _ => False) s') →
    wp (uninit E d r m) (fun _ s' => ∃ c' : List (Option α), c'.length = c.length ∧ (∀ j, j < m → c'[j]? = some (some (g j))) ∧ At (setVar b d (some c')) v n s')
      (fun s' => (∃ c' : List (Option α), At (setVar b d (some c')) v n s') ∧ ∃ k, E.elemFails k = true) s := by
  intro m
  induction m with
  | zero =>
    intro c s h hd _ _
    exact ⟨c, rfl, fun _ h => by omega, by rw [setVar_self _ _ _ hd]; exact h⟩
  | succ m ih =>
    intro c s h hd hm hr
    unfold uninit
    apply wp_bind
    refine wp_mono (ih c s h hd (by omega) fun k s' c' hk => hr k s' c' (by omega)) ?_ (fun _ h => h)
    rintro _ s' ⟨c', hl, hc', hat⟩
    apply wp_bind
    refine wp_mono (hr m s' c' (by omega) hat) ?_ (fun _ h => h.elim)
    rintro x s2 ⟨rfl, hat2⟩
    have hcon := wp_construct E d m (g m) c' hat2 (setVar_same _ _ _) (by omega)
    unfold wp at hcon ⊢
    dsimp only
    cases hres : construct E d m (g m) s2 with
    | ok _ s3 =>
      rw [hres] at hcon
      dsimp only at hcon ⊢
      rw [setVar_idem] at hcon
      refine ⟨c'.set m (some (g m)), by rw [List.length_set, hl], fun j hj => ?_, hcon⟩
      by_cases e : j = m
      · subst e; rw [List.getElem?_set_self (by omega)]
      · rw [List.getElem?_set_ne (by omega)]; exact hc' j (by omega)
    | threw s3 =>
      rw [hres] at hcon
      obtain ⟨hat3, hk⟩ := hcon
      have hdes := wp_destroy d m c' hat3 (setVar_same _ _ _) fun j hj => ⟨_, hc' j hj⟩
      unfold wp at hdes
      dsimp only
      cases hres2 : loopE (destroyCell d) m s3 with
      | ok _ s4 =>
        rw [hres2] at hdes
        obtain ⟨c4, _, h4⟩ := hdes
        rw [setVar_idem] at h4
        exact ⟨⟨c4, h4⟩, hk⟩
      | threw s4 => rw [hres2] at hdes; exact hdes.elim
      | ub => rw [hres2] at hdes; exact hdes.elim
    | ub => rw [hres] at hcon; exact hcon.elim

theorem wp_obj (x : Nat) (a : UArr) (h : At b v n s) (hx : v x = some a) : wp (obj x) (fun a' s' => a' = a ∧ At b v n s') (fun _ => False) s := by
  unfold wp obj
  rw [h.2.1, hx]
  exact ⟨rfl, h⟩

theorem wp_setObj (x : Nat) (a : Option UArr) (h : At b v n s) : wp (setObj x a) (fun _ => At b (setVar v x a) n) (fun _ => False) s := ⟨h.1, by show setVar s.var x a = _; rw [h.2.1], h.2.2⟩

/-- A list of cells that are all constructed. -/
theorem cells_eq (c : List (Option α)) (L : List α) (hl : c.length = L.length) (h : ∀ j (hj : j < L.length), c[j]? = some (some L[j])) : c = L.map some := by
  apply List.ext_getElem?
  intro j
  by_cases hj : j < L.length
  · rw [h j hj]; simp [List.getElem?_eq_getElem hj]
  · rw [List.getElem?_eq_none (by omega), List.getElem?_eq_none (by simp; omega)]

end Ublas.Exc
