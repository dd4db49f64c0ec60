import Verif.Lemmas.ExcStorage
/-! # C104: unbounded_array when an allocation or an element operation throws -/
namespace Ublas.Exc
open Storage (Op UArr setVar)
variable {α : Type}

/-- The live non-empty array `x` owns the block `p`. -/
def Own (s : St α) (x p : Nat) : Prop := ∃ a, s.var x = some a ∧ a.size ≠ 0 ∧ a.ptr = some p

theorem Shows.own_blk {s : St α} {v : View α} (h : Shows s v) {x p : Nat} (ho : Own s x p) : ∃ L, v x = some L ∧ L ≠ [] ∧ s.blk p = some (L.map some) := by
  obtain ⟨a, ha, hs, hp⟩ := ho
  cases hv : v x with
  | none => rw [h.dead x hv] at ha; cases ha
  | some L =>
    obtain ⟨a', ha', hsz, hL⟩ := h.live x L hv
    rw [ha] at ha'; cases ha'
    have hne : L ≠ [] := by intro e; rw [e] at hsz; exact hs hsz
    obtain ⟨p', hp', hb⟩ := hL hne
    rw [hp] at hp'; cases hp'
    exact ⟨L, rfl, hne, hb⟩

theorem Shows.own_lt {s : St α} {v : View α} (h : Shows s v) {x p : Nat} (ho : Own s x p) : p < s.next := by
  rcases Nat.lt_or_ge p s.next with h' | h'
  · exact h'
  · obtain ⟨L, _, _, hb⟩ := h.own_blk ho
    rw [h.fresh p h'] at hb; cases hb

theorem Shows.own_inj {s : St α} {v : View α} (h : Shows s v) {x y p : Nat} (hx : Own s x p) (hy : Own s y p) : x = y := by
  obtain ⟨a, ha, hs, hp⟩ := hx
  obtain ⟨b, hb, ht, hq⟩ := hy
  exact h.apart x y a b p ha hb hs ht hp hq

/-- Replacing the array named `x`. -/
theorem shows_upd {s s' : St α} {v : View α} (h : Shows s v) (x : Nat) (o : Option (List α)) (hvar : ∀ y, y ≠ x → s'.var y = s.var y) (hblk : ∀ y p, y ≠ x → Own s y p → s'.blk p = s.blk p)
    (hn : o = none → s'.var x = none)
    (hs : ∀ L, o = some L → ∃ a, s'.var x = some a ∧ a.size = L.length ∧ (L ≠ [] → ∃ p, a.ptr = some p ∧ s'.blk p = some (L.map some) ∧ ∀ y, y ≠ x → ¬ Own s y p))
    (hf : ∀ p, s'.next ≤ p → s'.blk p = none) : Shows s' (setVar v x o) := by
  have hown : ∀ y p, y ≠ x → (∃ a, s'.var y = some a ∧ a.size ≠ 0 ∧ a.ptr = some p) → Own s y p := by
    rintro y p hy ⟨a, ha, hsz, hp⟩
    exact ⟨a, by rw [← hvar y hy]; exact ha, hsz, hp⟩
  have hxo : ∀ a p, s'.var x = some a → a.size ≠ 0 → a.ptr = some p → ∀ y, y ≠ x → ¬ Own s y p := by
    intro a p ha hsz hp
    cases ho : o with
    | none => rw [hn ho] at ha; cases ha
    | some L =>
      obtain ⟨a', ha', hsz', hL⟩ := hs L ho
      rw [ha] at ha'; cases ha'
      have hne : L ≠ [] := by intro e; rw [e] at hsz'; exact hsz hsz'
      obtain ⟨p', hp', _, hno⟩ := hL hne
      rw [hp] at hp'; cases hp'
      exact hno
  refine ⟨fun y hy => ?_, fun y L hy => ?_, fun y z a b p ha hb hsa hsb hpa hpb => ?_, hf⟩
  · by_cases e : y = x
    · subst e; rw [setVar_same] at hy; exact hn hy
    · rw [setVar_ne _ _ e] at hy; rw [hvar y e]; exact h.dead y hy
  · by_cases e : y = x
    · subst e; rw [setVar_same] at hy
      obtain ⟨a, ha, hsz, hL⟩ := hs L hy
      exact ⟨a, ha, hsz, fun hne => by obtain ⟨p, hp, hb, _⟩ := hL hne; exact ⟨p, hp, hb⟩⟩
    · rw [setVar_ne _ _ e] at hy
      obtain ⟨a, ha, hsz, hL⟩ := h.live y L hy
      refine ⟨a, by rw [hvar y e]; exact ha, hsz, fun hne => ?_⟩
      obtain ⟨p, hp, hb⟩ := hL hne
      refine ⟨p, hp, ?_⟩
      rw [hblk y p e ⟨a, ha, by rw [hsz]; exact fun e0 => hne (List.length_eq_zero_iff.1 e0), hp⟩]
      exact hb
  · by_cases e : y = x
    · by_cases e' : z = x
      · rw [e, e']
      · subst e
        exact absurd (hown z p e' ⟨b, hb, hsb, hpb⟩) (hxo a p ha hsa hpa z e')
    · by_cases e' : z = x
      · subst e'
        exact absurd (hown y p e ⟨a, ha, hsa, hpa⟩) (hxo b p hb hsb hpb y e)
      · exact h.own_inj (hown y p e ⟨a, ha, hsa, hpa⟩) (hown z p e' ⟨b, hb, hsb, hpb⟩)

/-- The same state with another clock, or with additional blocks that nobody owns. -/
theorem shows_same {s s' : St α} {v : View α} (h : Shows s v) (hvar : s'.var = s.var) (hblk : ∀ y p, Own s y p → s'.blk p = s.blk p) (hf : ∀ p, s'.next ≤ p → s'.blk p = none) : Shows s' v := by
  refine ⟨fun y hy => by rw [hvar]; exact h.dead y hy, fun y L hy => ?_, fun y z a b p ha hb => ?_, hf⟩
  · obtain ⟨a, ha, hsz, hL⟩ := h.live y L hy
    refine ⟨a, by rw [hvar]; exact ha, hsz, fun hne => ?_⟩
    obtain ⟨p, hp, hb⟩ := hL hne
    exact ⟨p, hp, by rw [hblk y p ⟨a, ha, by rw [hsz]; exact fun e0 => hne (List.length_eq_zero_iff.1 e0), hp⟩]; exact hb⟩
  · rw [hvar] at ha hb
    exact h.apart y z a b p ha hb

theorem Shows.obj {s : St α} {v : View α} (h : Shows s v) {x : Nat} (hx : v x ≠ none) : ∃ L a, v x = some L ∧ s.var x = some a ∧ a.size = L.length ∧ (L ≠ [] → ∃ p, a.ptr = some p ∧ s.blk p = some (L.map some)) := by
  cases hv : v x with
  | none => exact absurd hv hx
  | some L =>
    obtain ⟨a, ha, hs, hp⟩ := h.live x L hv
    exact ⟨L, a, rfl, ha, hs, hp⟩

theorem at_refl (s : St α) : At s.blk s.var s.next s := ⟨rfl, rfl, rfl⟩

/-- Normal end. -/
def Done (s : St α) (v : View α) (op : Op α) (s' : St α) : Prop := ∃ v', Effect v op v' ∧ Shows s' v' ∧ (NoLeak s → NoLeak s')

/-- After an exception: either nothing has changed, or an element operation failed and either all arrays are usable and only the target has changed, or the operation was replacing the block of its target
and all the other arrays are as before. -/
def Failed (E : Env α) (s : St α) (v : View α) (op : Op α) (s' : St α) : Prop :=
  (At s.blk s.var s.next s' ∧ ∃ k, E.allocFails k = true ∨ E.elemFails k = true) ∨
  ((∃ k, E.elemFails k = true) ∧
    ((∃ v', Shows s' v' ∧ (∀ y, y ≠ target op → v' y = v y) ∧ (isCtor op = false → NoLeak s → NoLeak s')) ∨
     (¬ Stable v op ∧ Shows (forget (target op) s') (setVar v (target op) none))))

/-- A finished constructor: a new block with the right contents. -/
theorem ctor_done {s s' : St α} {v : View α} (h : Shows s v) {x : Nat} (hx : v x = none) (L : List α) (hL : L ≠ [])
    (hat : At (setVar s.blk s.next (some (L.map some))) (setVar s.var x (some ⟨L.length, some s.next⟩)) (s.next + 1) s') : Shows s' (setVar v x (some L)) ∧ (NoLeak s → NoLeak s') := by
  obtain ⟨h1, h2, h3⟩ := hat
  have hno : ∀ y p, Own s y p → p ≠ s.next := fun y p ho => Nat.ne_of_lt (h.own_lt ho)
  refine ⟨shows_upd h x _ (fun y hy => by rw [h2, setVar_ne _ _ hy]) (fun y p _ ho => by rw [h1, setVar_ne _ _ (hno y p ho)]) (fun e => by cases e) ?_ ?_, ?_⟩
  · intro L' e
    cases e
    refine ⟨⟨L.length, some s.next⟩, by rw [h2, setVar_same], rfl, fun _ => ⟨s.next, rfl, by rw [h1, setVar_same], fun y _ ho => hno y _ ho rfl⟩⟩
  · intro p hp
    rw [h3] at hp
    rw [h1, setVar_ne _ _ (by omega)]
    exact h.fresh p (by omega)
  · intro hl p hp
    rw [h1] at hp
    by_cases e : p = s.next
    · subst e
      exact ⟨x, _, by rw [h2, setVar_same], fun e0 => hL (List.length_eq_zero_iff.1 e0), rfl⟩
    · rw [setVar_ne _ _ e] at hp
      obtain ⟨y, a, ha, hs, hpa⟩ := hl p hp
      refine ⟨y, a, ?_, hs, hpa⟩
      rw [h2, setVar_ne]
      · exact ha
      · intro e2; subst e2; rw [h.dead _ hx] at ha; cases ha

theorem ctor_empty {s s' : St α} {v : View α} (h : Shows s v) {x : Nat} (hx : v x = none) (hat : At s.blk (setVar s.var x (some ⟨0, none⟩)) s.next s') :
    Shows s' (setVar v x (some [])) ∧ (NoLeak s → NoLeak s') := by
  obtain ⟨h1, h2, h3⟩ := hat
  refine ⟨shows_upd h x _ (fun y hy => by rw [h2, setVar_ne _ _ hy]) (fun y p _ _ => by rw [h1]) (fun e => by cases e) ?_ ?_, ?_⟩
  · intro L' e
    cases e
    exact ⟨⟨0, none⟩, by rw [h2, setVar_same], rfl, fun e => absurd rfl e⟩
  · intro p hp
    rw [h3] at hp; rw [h1]
    exact h.fresh p hp
  · intro hl p hp
    rw [h1] at hp
    obtain ⟨y, a, ha, hs, hpa⟩ := hl p hp
    refine ⟨y, a, ?_, hs, hpa⟩
    rw [h2, setVar_ne]
    · exact ha
    · intro e2; subst e2; rw [h.dead _ hx] at ha; cases ha

/-- A constructor that threw after its allocation: the block is lost, everything else is as before. -/
theorem ctor_lost {s s' : St α} {v : View α} (h : Shows s v) (c : List (Option α)) (hat : At (setVar s.blk s.next (some c)) s.var (s.next + 1) s') : Shows s' v := by
  obtain ⟨h1, h2, h3⟩ := hat
  refine shows_same h h2 (fun y p ho => by rw [h1, setVar_ne _ _ (Nat.ne_of_lt (h.own_lt ho))]) fun p hp => ?_
  rw [h3] at hp
  rw [h1, setVar_ne _ _ (by omega)]
  exact h.fresh p (by omega)

variable (E : Env α)

theorem pure_reads (t : α) {b : Nat → Option (List (Option α))} {w : Nat → Option UArr} {n d m : Nat} : ∀ k (s' : St α) (c' : List (Option α)), k < m → At (setVar b d (some c')) w n s' →
    wp (pure t : EM α α) (fun x s'' => x = t ∧ At (setVar b d (some c')) w n s'') (fun _ => False) s' := fun _ _ _ _ h => ⟨rfl, h⟩

theorem block_reads {b : Nat → Option (List (Option α))} {w : Nat → Option UArr} {n d p m : Nat} (L : List α) (hp : b p = some (L.map some)) (hne : p ≠ d) (hm : m ≤ L.length) (dflt : α) :
    ∀ k (s' : St α) (c' : List (Option α)), k < m → At (setVar b d (some c')) w n s' →
      wp (read (some p) k) (fun x s'' => x = L.getD k dflt ∧ At (setVar b d (some c')) w n s'') (fun _ => False) s' := by
  intro k s' c' hk hat
  refine wp_mono (wp_read p k L hat (by rw [setVar_ne _ _ hne]; exact hp) (by omega)) (fun x s'' ⟨h1, h2⟩ => ⟨?_, h2⟩) (fun _ h => h)
  rw [h1, List.getD_eq_getElem?_getD, List.getElem?_eq_getElem (by omega)]
  rfl

theorem step_ctor {s : St α} {v : View α} (h : Shows s v) (x n : Nat) (hx : v x = none) : wp (ctor E x n) (fun _ => Done s v (.ctor x n)) (Failed E s v (.ctor x n)) s := by
  unfold ctor
  by_cases h0 : n ≠ 0
  · rw [if_pos h0]
    apply wp_bind
    refine wp_mono (wp_allocate E n (at_refl s)) ?_ (fun s' h' => .inl h')
    rintro p s1 ⟨rfl, c, hc, htriv, hat⟩
    apply wp_bind
    have fin : ∀ (L : List α) (s2 : St α), L.length = n → At (setVar s.blk s.next (some (L.map some))) s.var (s.next + 1) s2 →
        wp (setObj x (some ⟨n, some s.next⟩)) (fun _ => Done s v (.ctor x n)) (Failed E s v (.ctor x n)) s2 := by
      intro L s2 hL h2
      refine wp_mono (wp_setObj x _ h2) (fun _ s3 h3 => ?_) (fun _ h => h.elim)
      have hL0 : L ≠ [] := by intro e; rw [e] at hL; exact h0 hL.symm
      rw [← hL] at h3
      obtain ⟨hs, hl⟩ := ctor_done h hx L hL0 h3
      exact ⟨_, ⟨L, hL, rfl⟩, hs, hl⟩
    apply wp_when
    · intro _
      unfold fillTo
      refine wp_mono (wp_fill E s.next 0 n c (fun _ => E.dflt) (fun _ => pure E.dflt) hat (setVar_same _ _ _) (by omega) (pure_reads E.dflt)) ?_ ?_
      · rintro _ s2 ⟨c2, hl2, _, hc2, hat2⟩
        rw [setVar_idem] at hat2
        have : c2 = (List.replicate n E.dflt).map some := cells_eq _ _ (by simp [hl2, hc]) fun j hj => by
          have := hc2 j (by simpa using hj)
          rw [Nat.zero_add] at this
          rw [this]; simp
        rw [this] at hat2
        exact fin _ s2 (by simp) hat2
      · rintro s2 ⟨⟨c2, hat2⟩, hk⟩
        rw [setVar_idem] at hat2
        exact .inr ⟨hk, .inl ⟨v, ctor_lost h c2 hat2, fun _ _ => rfl, fun e => by cases e⟩⟩
    · intro ht
      obtain ⟨L, hL⟩ := htriv (by simpa using ht)
      rw [hL] at hat
      exact fin L s1 (by rw [hL] at hc; simpa using hc) hat
  · rw [if_neg h0]
    have h0' : n = 0 := by omega
    subst h0'
    refine wp_mono (wp_setObj x _ (at_refl s)) (fun _ s3 h3 => ?_) (fun _ h => h.elim)
    obtain ⟨hs, hl⟩ := ctor_empty h hx h3
    exact ⟨_, ⟨[], rfl, rfl⟩, hs, hl⟩

theorem step_ctorInit {s : St α} {v : View α} (h : Shows s v) (x n : Nat) (t : α) (hx : v x = none) :
    wp (ctorInit E x n t) (fun _ => Done s v (.ctorInit x n t)) (Failed E s v (.ctorInit x n t)) s := by
  unfold ctorInit
  by_cases h0 : n ≠ 0
  · rw [if_pos h0]
    apply wp_bind
    refine wp_mono (wp_allocate E n (at_refl s)) ?_ (fun s' h' => .inl h')
    rintro p s1 ⟨rfl, c, hc, _, hat⟩
    apply wp_bind
    refine wp_mono (wp_uninit E s.next (fun _ => t) (fun _ => pure t) n c s1 hat (setVar_same _ _ _) (by omega) (pure_reads t)) ?_ ?_
    · rintro _ s2 ⟨c2, hl2, hc2, hat2⟩
      rw [setVar_idem] at hat2
      have : c2 = (List.replicate n t).map some := cells_eq _ _ (by simp [hl2, hc]) fun j hj => by
        rw [hc2 j (by simpa using hj)]; simp
      rw [this] at hat2
      refine wp_mono (wp_setObj x _ hat2) (fun _ s3 h3 => ?_) (fun _ h => h.elim)
      have e : (⟨n, some s.next⟩ : UArr) = ⟨(List.replicate n t).length, some s.next⟩ := by simp
      rw [e] at h3
      obtain ⟨hs, hl⟩ := ctor_done h hx (List.replicate n t) (by intro e; exact h0 (by simpa using congrArg List.length e)) h3
      exact ⟨_, rfl, hs, hl⟩
    · rintro s2 ⟨⟨c2, hat2⟩, hk⟩
      rw [setVar_idem] at hat2
      exact .inr ⟨hk, .inl ⟨v, ctor_lost h c2 hat2, fun _ _ => rfl, fun e => by cases e⟩⟩
  · rw [if_neg h0]
    have h0' : n = 0 := by omega
    subst h0'
    refine wp_mono (wp_setObj x _ (at_refl s)) (fun _ s3 h3 => ?_) (fun _ h => h.elim)
    obtain ⟨hs, hl⟩ := ctor_empty h hx h3
    exact ⟨_, rfl, hs, hl⟩

theorem getD_cells (L : List α) (dflt : α) (c : List (Option α)) (hl : c.length = L.length) (h : ∀ j, j < L.length → c[j]? = some (some (L.getD j dflt))) : c = L.map some :=
  cells_eq _ _ hl fun j hj => by rw [h j hj, List.getD_eq_getElem?_getD, List.getElem?_eq_getElem hj]; rfl

theorem step_copyCtor {s : St α} {v : View α} (h : Shows s v) (x y : Nat) (hx : v x = none) (hy : v y ≠ none) :
    wp (copyCtor E x y) (fun _ => Done s v (.copyCtor x y)) (Failed E s v (.copyCtor x y)) s := by
  obtain ⟨L, a, hv, ha, hsz, hb⟩ := h.obj hy
  unfold copyCtor
  apply wp_bind
  refine wp_mono (wp_obj y a (at_refl s) ha) ?_ (fun _ h => h.elim)
  rintro a s0 ⟨rfl, hat0⟩
  by_cases h0 : a.size ≠ 0
  · rw [if_pos h0]
    have hL0 : L ≠ [] := by intro e; rw [e] at hsz; exact h0 hsz
    obtain ⟨p, hp, hblk⟩ := hb hL0
    have hne : p ≠ s.next := Nat.ne_of_lt (h.own_lt ⟨a, ha, h0, hp⟩)
    apply wp_bind
    refine wp_mono (wp_allocate E a.size hat0) ?_ (fun s' h' => .inl h')
    rintro _ s1 ⟨rfl, c, hc, _, hat⟩
    apply wp_bind
    rw [hp]
    refine wp_mono (wp_uninit E s.next (fun k => L.getD k E.dflt) (fun k => read (some p) k) a.size c s1 hat (setVar_same _ _ _) (by omega)
      (block_reads L (by rw [setVar_ne _ _ hne]; exact hblk) hne (by omega) E.dflt)) ?_ ?_
    · rintro _ s2 ⟨c2, hl2, hc2, hat2⟩
      rw [setVar_idem] at hat2
      rw [getD_cells L E.dflt c2 (by omega) fun j hj => hc2 j (by omega)] at hat2
      refine wp_mono (wp_setObj x _ hat2) (fun _ s3 h3 => ?_) (fun _ h => h.elim)
      rw [hsz] at h3
      obtain ⟨hs, hl⟩ := ctor_done h hx L hL0 h3
      exact ⟨_, by rw [← hv]; rfl, hs, hl⟩
    · rintro s2 ⟨⟨c2, hat2⟩, hk⟩
      rw [setVar_idem] at hat2
      exact .inr ⟨hk, .inl ⟨v, ctor_lost h c2 hat2, fun _ _ => rfl, fun e => by cases e⟩⟩
  · rw [if_neg h0]
    have h0' : a.size = 0 := by omega
    have hL : L = [] := List.length_eq_zero_iff.1 (by omega)
    rw [h0']
    refine wp_mono (wp_setObj x _ hat0) (fun _ s3 h3 => ?_) (fun _ h => h.elim)
    obtain ⟨hs, hl⟩ := ctor_empty h hx h3
    exact ⟨_, by rw [← hL, ← hv]; rfl, hs, hl⟩

theorem len_ne {L : List α} (h : L ≠ []) : L.length ≠ 0 := fun e => h (List.length_eq_zero_iff.1 e)

/-- Giving the name `x` an array object whose block nobody else owns. -/
theorem shows_put {s : St α} {v : View α} (h : Shows s v) (x : Nat) (a : UArr) (L : List α) (hsz : a.size = L.length)
    (hp : L ≠ [] → ∃ p, a.ptr = some p ∧ s.blk p = some (L.map some) ∧ ∀ y, y ≠ x → ¬ Own s y p) : Shows { s with var := setVar s.var x (some a) } (setVar v x (some L)) :=
  shows_upd h x _ (fun y hy => setVar_ne _ _ hy) (fun _ _ _ _ => rfl) (fun e => by cases e) (fun L' e => by cases e; exact ⟨a, setVar_same _ _ _, hsz, hp⟩) h.fresh

theorem shows_kill {s : St α} {v : View α} (h : Shows s v) (x : Nat) : Shows { s with var := setVar s.var x none } (setVar v x none) :=
  shows_upd h x _ (fun y hy => setVar_ne _ _ hy) (fun _ _ _ _ => rfl) (fun _ => setVar_same _ _ _) (fun L' e => by cases e) h.fresh

theorem shows_at {s s' : St α} {v : View α} (h : Shows s v) (hat : At s.blk s.var s.next s') : Shows s' v :=
  shows_same h hat.2.1 (fun _ _ _ => by rw [hat.1]) fun p hp => by rw [hat.2.2] at hp; rw [hat.1]; exact h.fresh p hp

theorem noleak_at {s s' : St α} (hat : At s.blk s.var s.next s') (h : NoLeak s) : NoLeak s' := by
  intro p hp
  rw [hat.1] at hp
  rw [hat.2.1]
  exact h p hp

theorem step_moveCtor {s : St α} {v : View α} (h : Shows s v) (x y : Nat) (hx : v x = none) (hy : v y ≠ none) :
    wp (moveCtor x y) (fun _ => Done s v (.moveCtor x y)) (Failed E s v (.moveCtor x y)) s := by
  obtain ⟨L, a, hv, ha, hsz, hb⟩ := h.obj hy
  have hxy : x ≠ y := by rintro rfl; exact hy hx
  unfold moveCtor
  apply wp_bind
  refine wp_mono (wp_obj y a (at_refl s) ha) ?_ (fun _ h => h.elim)
  rintro a s0 ⟨rfl, hat0⟩
  apply wp_bind
  refine wp_mono (wp_setObj x _ hat0) (fun _ s1 h1 => ?_) (fun _ h => h.elim)
  refine wp_mono (wp_setObj y _ h1) (fun _ s2 h2 => ?_) (fun _ h => h.elim)
  have k1 := shows_put h y ⟨0, none⟩ [] rfl (fun e => absurd rfl e)
  have k2 := shows_put k1 x a L hsz (fun hL => by
    obtain ⟨p, hp, hblk⟩ := hb hL
    refine ⟨p, hp, hblk, fun z hz ⟨b, hb1, hb2, hb3⟩ => ?_⟩
    dsimp only at hb1
    by_cases e : z = y
    · subst e; rw [setVar_same] at hb1; cases hb1; exact hb2 rfl
    · rw [setVar_ne _ _ e] at hb1
      exact e (h.own_inj ⟨b, hb1, hb2, hb3⟩ ⟨a, ha, by rw [hsz]; exact len_ne hL, hp⟩))
  refine ⟨_, rfl, ?_, fun hl p hp => ?_⟩
  · rw [hv, setVar_swap _ _ _ hxy]
    refine shows_at k2 ⟨h2.1, ?_, h2.2.2⟩
    rw [h2.2.1, setVar_swap _ _ _ hxy]
  · rw [h2.1] at hp
    rw [h2.2.1]
    obtain ⟨z, b, hb1, hb2, hb3⟩ := hl p hp
    by_cases e : z = y
    · subst e
      refine ⟨x, b, ?_, hb2, hb3⟩
      rw [ha] at hb1; cases hb1
      rw [setVar_ne _ _ hxy, setVar_same]
    · refine ⟨z, b, ?_, hb2, hb3⟩
      rw [setVar_ne _ _ e, setVar_ne]
      · exact hb1
      · rintro rfl; rw [h.dead _ hx] at hb1; cases hb1

theorem set3 {β : Type} (w : Nat → Option β) {x y : Nat} (h : x ≠ y) (a c : Option β) : setVar (setVar (setVar w x none) y a) x c = setVar (setVar w x c) y a := by
  rw [setVar_swap w none a h, setVar_idem, setVar_swap w c a h]

theorem step_swap {s : St α} {v : View α} (h : Shows s v) (x y : Nat) (hx : v x ≠ none) (hy : v y ≠ none) :
    wp (swap x y) (fun _ => Done s v (.swap x y)) (Failed E s v (.swap x y)) s := by
  obtain ⟨L, a, hv, ha, hsz, hb⟩ := h.obj hx
  obtain ⟨K, c, hv', hc, hsz', hb'⟩ := h.obj hy
  unfold swap
  apply wp_bind
  refine wp_mono (wp_obj x a (at_refl s) ha) ?_ (fun _ h => h.elim)
  rintro a s0 ⟨rfl, hat0⟩
  apply wp_bind
  refine wp_mono (wp_obj y c hat0 hc) ?_ (fun _ h => h.elim)
  rintro c s1 ⟨rfl, hat1⟩
  apply wp_when
  · intro hxy
    apply wp_bind
    refine wp_mono (wp_setObj x _ hat1) (fun _ s2 h2 => ?_) (fun _ h => h.elim)
    refine wp_mono (wp_setObj y _ h2) (fun _ s3 h3 => ?_) (fun _ h => h.elim)
    have k1 := shows_kill h x
    have k2 := shows_put k1 y a L hsz (fun hL => by
      obtain ⟨p, hp, hblk⟩ := hb hL
      refine ⟨p, hp, hblk, fun z hz ⟨b, hb1, hb2, hb3⟩ => ?_⟩
      dsimp only at hb1
      by_cases e : z = x
      · subst e; rw [setVar_same] at hb1; cases hb1
      · rw [setVar_ne _ _ e] at hb1
        exact e (h.own_inj ⟨b, hb1, hb2, hb3⟩ ⟨a, ha, by rw [hsz]; exact len_ne hL, hp⟩))
    have k3 := shows_put k2 x c K hsz' (fun hK => by
      obtain ⟨p, hp, hblk⟩ := hb' hK
      refine ⟨p, hp, hblk, fun z hz ⟨b, hb1, hb2, hb3⟩ => ?_⟩
      dsimp only at hb1
      by_cases e : z = y
      · subst e
        rw [setVar_same] at hb1; cases hb1
        exact hz (h.own_inj ⟨c, hc, by rw [hsz']; exact len_ne hK, hp⟩ ⟨a, ha, hb2, hb3⟩)
      · rw [setVar_ne _ _ e, setVar_ne _ _ hz] at hb1
        exact e (h.own_inj ⟨b, hb1, hb2, hb3⟩ ⟨c, hc, by rw [hsz']; exact len_ne hK, hp⟩))
    refine ⟨_, rfl, ?_, fun hl p hp => ?_⟩
    · rw [hv', hv]
      have k4 := k3
      rw [set3 v hxy] at k4
      refine shows_at k4 ⟨h3.1, ?_, h3.2.2⟩
      rw [h3.2.1]
      exact (set3 s.var hxy _ _).symm
    · rw [h3.1] at hp
      rw [h3.2.1]
      obtain ⟨z, b, hb1, hb2, hb3⟩ := hl p hp
      by_cases e : z = x
      · subst e
        rw [ha] at hb1; cases hb1
        exact ⟨y, _, setVar_same _ _ _, hb2, hb3⟩
      · by_cases e' : z = y
        · subst e'
          rw [hc] at hb1; cases hb1
          exact ⟨x, _, by rw [setVar_ne _ _ hxy, setVar_same], hb2, hb3⟩
        · exact ⟨z, b, by rw [setVar_ne _ _ e', setVar_ne _ _ e]; exact hb1, hb2, hb3⟩
  · intro hxy
    have hxy : x = y := by simpa using hxy
    subst hxy
    refine ⟨_, rfl, ?_, noleak_at hat1⟩
    rw [setVar_idem, setVar_self _ _ _ rfl]
    exact shows_at h hat1

/-- New elements in the block of `x`. -/
theorem shows_cells {s s' : St α} {v : View α} (h : Shows s v) {x p : Nat} {a : UArr} {L : List α} (ha : s.var x = some a) (hsz : a.size = L.length) (hL : L ≠ []) (hp : a.ptr = some p) (L2 : List α)
    (hl : L2.length = L.length) (hat : At (setVar s.blk p (some (L2.map some))) s.var s.next s') : Shows s' (setVar v x (some L2)) ∧ (NoLeak s → NoLeak s') := by
  obtain ⟨h1, h2, h3⟩ := hat
  have hown : Own s x p := ⟨a, ha, by rw [hsz]; exact len_ne hL, hp⟩
  refine ⟨shows_upd h x _ (fun y _ => by rw [h2]) (fun y q hy ho => ?_) (fun e => by cases e) ?_ ?_, fun hn q hq => ?_⟩
  · rw [h1, setVar_ne]
    rintro rfl
    exact hy (h.own_inj ho hown)
  · intro L' e
    cases e
    refine ⟨a, by rw [h2]; exact ha, by rw [hl, hsz], fun _ => ⟨p, hp, by rw [h1, setVar_same], fun y hy ho => hy (h.own_inj ho hown)⟩⟩
  · intro q hq
    rw [h3] at hq
    have : q ≠ p := fun e => by have := h.own_lt hown; omega
    rw [h1, setVar_ne _ _ this]
    exact h.fresh q hq
  · rw [h2]
    apply hn
    rw [h1] at hq
    by_cases e : q = p
    · subst e
      obtain ⟨_, _, _, hb⟩ := h.own_blk hown
      rw [hb]; exact fun e => by cases e
    · rwa [setVar_ne _ _ e] at hq

theorem step_store {s : St α} {v : View α} (h : Shows s v) (x i : Nat) (t : α) (L : List α) (hv : v x = some L) (hi : i < L.length) :
    wp (store E x i t) (fun _ => Done s v (.store x i t)) (Failed E s v (.store x i t)) s := by
  obtain ⟨a, ha, hsz, hb⟩ := h.live x L hv
  have hL : L ≠ [] := by rintro rfl; exact absurd hi (by simp)
  obtain ⟨p, hp, hblk⟩ := hb hL
  unfold store
  apply wp_bind
  refine wp_mono (wp_obj x a (at_refl s) ha) ?_ (fun _ h => h.elim)
  rintro a s0 ⟨rfl, hat0⟩
  rw [hp]
  refine wp_mono (wp_assignCell E p i t L hat0 hblk hi) (fun _ s1 h1 => ?_) (fun s1 h1 => .inl ⟨h1.1, h1.2.imp fun _ => .inr⟩)
  obtain ⟨k1, k2⟩ := shows_cells h ha hsz hL hp (L.set i t) (by simp) h1
  exact ⟨_, ⟨L, hv, rfl⟩, k1, k2⟩

theorem step_dtor {s : St α} {v : View α} (h : Shows s v) (x : Nat) (hx : v x ≠ none) : wp (dtor E x) (fun _ => Done s v (.dtor x)) (Failed E s v (.dtor x)) s := by
  obtain ⟨L, a, hv, ha, hsz, hb⟩ := h.obj hx
  unfold dtor
  apply wp_bind
  refine wp_mono (wp_obj x a (at_refl s) ha) ?_ (fun _ h => h.elim)
  rintro a s0 ⟨rfl, hat0⟩
  apply wp_bind
  apply wp_when
  · intro h0
    have hL : L ≠ [] := by rintro rfl; exact h0 hsz
    obtain ⟨p, hp, hblk⟩ := hb hL
    have hown : Own s x p := ⟨a, ha, h0, hp⟩
    rw [hp, hsz]
    refine wp_mono (wp_release E p L hat0 hblk) (fun _ s1 h1 => ?_) (fun _ h => h.elim)
    refine wp_mono (wp_setObj x _ h1) (fun _ s2 h2 => ?_) (fun _ h => h.elim)
    obtain ⟨h1, h2, h3⟩ := h2
    refine ⟨_, rfl, shows_upd h x _ (fun y hy => by rw [h2, setVar_ne _ _ hy]) (fun y q hy ho => ?_) (fun _ => by rw [h2, setVar_same]) (fun _ e => by cases e) ?_, fun hn q hq => ?_⟩
    · rw [h1, setVar_ne]
      rintro rfl
      exact hy (h.own_inj ho hown)
    · intro q hq
      rw [h3] at hq
      rw [h1]
      by_cases e : q = p
      · subst e; exact setVar_same _ _ _
      · rw [setVar_ne _ _ e]; exact h.fresh q hq
    · rw [h1] at hq
      by_cases e : q = p
      · subst e; exact absurd (setVar_same _ _ _) hq
      · rw [setVar_ne _ _ e] at hq
        obtain ⟨z, b, hb1, hb2, hb3⟩ := hn q hq
        refine ⟨z, b, ?_, hb2, hb3⟩
        rw [h2, setVar_ne]
        · exact hb1
        · rintro rfl
          rw [ha] at hb1; cases hb1
          rw [hp] at hb3; cases hb3
          exact e rfl
  · intro h0
    refine wp_mono (wp_setObj x _ hat0) (fun _ s2 h2 => ?_) (fun _ h => h.elim)
    refine ⟨_, rfl, shows_at (shows_kill h x) h2, fun hn q hq => ?_⟩
    rw [h2.1] at hq
    obtain ⟨z, b, hb1, hb2, hb3⟩ := hn q hq
    refine ⟨z, b, ?_, hb2, hb3⟩
    rw [h2.2.1, setVar_ne]
    · exact hb1
    · rintro rfl
      rw [ha] at hb1; cases hb1
      exact h0 hb2

/-- The new block after `build`. -/
theorem wp_build {b : Nat → Option (List (Option α))} {w : Nat → Option UArr} {nx d n : Nat} {s : St α} (a : UArr) (L : List α) (hsz : a.size = L.length) (hb : L ≠ [] → ∃ p, a.ptr = some p ∧ p ≠ d ∧ b p = some (L.map some))
    (c : List (Option α)) (hc : c.length = n) (htriv : E.trivC = true → ∃ L' : List α, c = L'.map some) (hat : At b w nx s) (hd : b d = some c) (init : α) (pre : Bool) :
    wp (build E a d n init pre)
      (fun _ s' => ∃ L' : List α, L'.length = n ∧ (pre = true → L' = L.take n ++ List.replicate (n - L.length) init) ∧ At (setVar b d (some (L'.map some))) w nx s')
      (fun s' => (∃ c', At (setVar b d (some c')) w nx s') ∧ ∃ k, E.elemFails k = true) s := by
  have hcopy : ∀ m, m ≤ L.length → m ≤ n → wp (copyTo E a.ptr d m)
      (fun _ s' => ∃ c' : List (Option α), c'.length = c.length ∧ (∀ j, j < m → c'[j]? = some (some (L.getD j E.dflt))) ∧ At (setVar b d (some c')) w nx s')
      (fun s' => (∃ c', At (setVar b d (some c')) w nx s') ∧ ∃ k, E.elemFails k = true) s := by
    intro m hm hmn
    by_cases hL : L = []
    · have : m = 0 := by rw [hL] at hm; simpa using hm
      subst this
      exact ⟨c, rfl, fun _ h => by omega, by rw [setVar_self _ _ _ hd]; exact hat⟩
    · obtain ⟨p, hp, hne, hbp⟩ := hb hL
      unfold copyTo
      rw [hp]
      refine wp_mono (wp_fill E d 0 m c (fun k => L.getD k E.dflt) (fun k => read (some p) k) hat hd (by omega) (block_reads L hbp hne hm E.dflt)) ?_ (fun _ h => h)
      rintro _ s' ⟨c', hl, _, hj, h'⟩
      exact ⟨c', hl, fun j hjm => by have := hj j hjm; rwa [Nat.zero_add] at this, h'⟩
  unfold build
  cases pre with
  | true =>
    rw [if_pos rfl]
    by_cases hlt : n < a.size
    · rw [if_pos hlt]
      refine wp_mono (hcopy n (by omega) (Nat.le_refl n)) ?_ (fun _ h => h)
      rintro _ s' ⟨c', hl, hj, h'⟩
      refine ⟨L.take n, by rw [List.length_take]; omega, fun _ => by rw [show n - L.length = 0 from by omega]; simp, ?_⟩
      have : c' = (L.take n).map some := cells_eq _ _ (by rw [hl, hc, List.length_take]; omega) fun j hjn => by
        have hjn' : j < n := by rw [List.length_take] at hjn; omega
        rw [hj j hjn', List.getD_eq_getElem?_getD, List.getElem?_eq_getElem (by omega)]
        simp
      rw [this] at h'
      exact h'
    · rw [if_neg hlt]
      apply wp_bind
      refine wp_mono (hcopy a.size (by omega) (by omega)) ?_ (fun _ h => h)
      rintro _ s1 ⟨c1, hl1, hj1, h1⟩
      unfold fillTo
      refine wp_mono (wp_fill E d a.size (n - a.size) c1 (fun _ => init) (fun _ => pure init) h1 (setVar_same _ _ _) (by omega) (pure_reads init)) ?_ ?_
      · rintro _ s2 ⟨c2, hl2, hlo, hhi, h2⟩
        rw [setVar_idem] at h2
        refine ⟨L ++ List.replicate (n - L.length) init, by rw [List.length_append, List.length_replicate]; omega, fun _ => by rw [List.take_of_length_le (by omega)], ?_⟩
        have : c2 = (L ++ List.replicate (n - L.length) init).map some := cells_eq _ _ (by rw [List.length_append, List.length_replicate]; omega) fun j hjn => by
          rw [List.length_append, List.length_replicate] at hjn
          by_cases e : j < a.size
          · rw [hlo j e, hj1 j e, List.getElem_append_left (by omega), List.getD_eq_getElem?_getD, List.getElem?_eq_getElem (by omega)]
            rfl
          · have := hhi (j - a.size) (by omega)
            rw [show a.size + (j - a.size) = j from by omega] at this
            rw [this, List.getElem_append_right (by omega), List.getElem_replicate]
        rw [this] at h2
        exact h2
      · rintro s2 ⟨⟨c2, h2⟩, hk⟩
        rw [setVar_idem] at h2
        exact ⟨⟨c2, h2⟩, hk⟩
  | false =>
    rw [if_neg (by simp)]
    apply wp_when
    · intro _
      unfold fillTo
      refine wp_mono (wp_fill E d 0 n c (fun _ => E.dflt) (fun _ => pure E.dflt) hat hd (by omega) (pure_reads E.dflt)) ?_ (fun _ h => h)
      rintro _ s2 ⟨c2, hl2, _, hc2, hat2⟩
      have : c2 = (List.replicate n E.dflt).map some := cells_eq _ _ (by simp [hl2, hc]) fun j hj => by
        have := hc2 j (by simpa using hj)
        rw [Nat.zero_add] at this
        rw [this]; simp
      rw [this] at hat2
      exact ⟨List.replicate n E.dflt, List.length_replicate, (fun e => Bool.noConfusion e), hat2⟩
    · intro ht
      obtain ⟨L', hL'⟩ := htriv (by simpa using ht)
      rw [hL'] at hd hc
      exact ⟨L', by simpa using hc, (fun e => Bool.noConfusion e), (setVar_self b d _ hd).symm ▸ hat⟩

/-- The array after a completed `resize_internal`: its block replaced by the new one (`none` for size 0). -/
theorem resize_done {s s' : St α} {v : View α} (h : Shows s v) {x : Nat} {a : UArr} {L : List α} (hv : v x = some L) (ha : s.var x = some a) (hsz : a.size = L.length) (L' : List α)
    (o : Option Nat) (nx : Nat) (hnx : s.next ≤ nx) (hnew : L' ≠ [] → o = some s.next ∧ nx = s.next + 1) 
    (hvar : s'.var = setVar s.var x (some ⟨L'.length, o⟩)) (hnext : s'.next = nx)
    (hblk : s'.blk = fun q => if L ≠ [] ∧ a.ptr = some q then none else if L' ≠ [] ∧ q = s.next then some (L'.map some) else s.blk q) :
    Shows s' (setVar v x (some L')) ∧ (NoLeak s → NoLeak s') := by
  have hownx : ∀ q, L ≠ [] → a.ptr = some q → Own s x q := fun q hL hq => ⟨a, ha, by rw [hsz]; exact len_ne hL, hq⟩
  have hkeep : ∀ y q, y ≠ x → Own s y q → s'.blk q = s.blk q := by
    intro y q hy ho
    rw [hblk]
    dsimp only
    rw [if_neg, if_neg]
    · rintro ⟨_, e⟩; have := h.own_lt ho; omega
    · rintro ⟨hL, e⟩; exact hy (h.own_inj ho (hownx q hL e))
  refine ⟨shows_upd h x _ (fun y hy => by rw [hvar, setVar_ne _ _ hy]) hkeep (fun e => by cases e) ?_ ?_, fun hn q hq => ?_⟩
  · intro K e
    cases e
    refine ⟨⟨L'.length, o⟩, by rw [hvar, setVar_same], rfl, fun hne => ⟨s.next, (hnew hne).1, ?_, fun y _ ho => Nat.lt_irrefl _ (h.own_lt ho)⟩⟩
    rw [hblk]
    dsimp only
    rw [if_neg, if_pos ⟨hne, rfl⟩]
    rintro ⟨hL, e⟩
    exact Nat.lt_irrefl _ (h.own_lt (hownx _ hL e))
  · intro q hq
    rw [hnext] at hq
    rw [hblk]
    dsimp only
    split
    · rfl
    · rw [if_neg]
      · exact h.fresh q (by omega)
      · rintro ⟨hne, e⟩; have := (hnew hne).2; omega
  · rw [hblk] at hq
    dsimp only at hq
    by_cases h1 : L ≠ [] ∧ a.ptr = some q
    · rw [if_pos h1] at hq; exact absurd rfl hq
    · rw [if_neg h1] at hq
      by_cases h2 : L' ≠ [] ∧ q = s.next
      · refine ⟨x, ⟨L'.length, o⟩, by rw [hvar, setVar_same], len_ne h2.1, ?_⟩
        rw [h2.2]; exact (hnew h2.1).1
      · rw [if_neg h2] at hq
        obtain ⟨z, c, hc1, hc2, hc3⟩ := hn q hq
        refine ⟨z, c, ?_, hc2, hc3⟩
        rw [hvar, setVar_ne]
        · exact hc1
        · rintro rfl
          rw [ha] at hc1; cases hc1
          exact h1 ⟨by rintro rfl; exact hc2 hsz, hc3⟩

/-- `resize_internal` threw: before anything changed, or while the new block was being filled. -/
def ResizeThrew (E : Env α) (s : St α) (x n : Nat) (L : List α) (s' : St α) : Prop :=
  (At s.blk s.var s.next s' ∧ ∃ k, E.allocFails k = true ∨ E.elemFails k = true) ∨
  ((∃ k, E.elemFails k = true) ∧ ¬ (n = L.length ∨ n = 0) ∧ ∃ c', At (setVar s.blk s.next (some c')) (setVar s.var x (some ⟨L.length, some s.next⟩)) (s.next + 1) s')

theorem resize_lost {s s' : St α} {v : View α} (h : Shows s v) (x : Nat) (o c : _) (hat : At (setVar s.blk s.next c) (setVar s.var x o) (s.next + 1) s') : Shows (forget x s') (setVar v x none) := by
  obtain ⟨h1, h2, h3⟩ := hat
  refine shows_upd h x none (fun y hy => ?_) (fun y p _ ho => ?_) (fun _ => setVar_same _ _ _) (fun _ e => by cases e) (fun p hp => ?_)
  · show setVar s'.var x none y = _
    rw [setVar_ne _ _ hy, h2, setVar_ne _ _ hy]
  · show s'.blk p = _
    rw [h1, setVar_ne _ _ (Nat.ne_of_lt (h.own_lt ho))]
  · have hp' : s'.next ≤ p := hp
    rw [h3] at hp'
    show s'.blk p = none
    rw [h1, setVar_ne _ _ (by omega)]
    exact h.fresh p (by omega)

theorem newblk (L' : List α) (n : Nat) (b : Nat → Option (List (Option α))) (r : Nat) :
    (if L' ≠ [] then setVar b n (some (L'.map some)) else b) r = if L' ≠ [] ∧ r = n then some (L'.map some) else b r := by
  by_cases e2 : L' = []
  · subst e2; simp
  · by_cases e3 : r = n
    · subst e3; simp [e2, setVar_same]
    · simp [e2, e3, setVar_ne]

theorem wp_resize {s : St α} {v : View α} (h : Shows s v) (x n : Nat) (init : α) (pre : Bool) (L : List α) (hv : v x = some L) :
    wp (resizeInternal E x n init pre)
      (fun _ s' => ∃ L' : List α, L'.length = n ∧ (L.length = n → L' = L) ∧ (pre = true → L' = L.take n ++ List.replicate (n - L.length) init) ∧ Shows s' (setVar v x (some L')) ∧ (NoLeak s → NoLeak s'))
      (ResizeThrew E s x n L) s := by
  obtain ⟨a, ha, hsz, hb⟩ := h.live x L hv
  unfold resizeInternal
  apply wp_bind
  refine wp_mono (wp_obj x a (at_refl s) ha) ?_ (fun _ h => h.elim)
  rintro a s0 ⟨rfl, hat0⟩
  apply wp_when
  · intro hne
    -- the end of the function, once the new block (if any) is ready
    have fin : ∀ (L' : List α) (s1 : St α) (nx : Nat) (w : Nat → Option UArr), L'.length = n → (pre = true → L' = L.take n ++ List.replicate (n - L.length) init) → s.next ≤ nx → (L' ≠ [] → nx = s.next + 1) →
        (∃ q, w = setVar s.var x (some ⟨a.size, q⟩) ∧ (L' ≠ [] → q = some s.next)) →
        At (if L' ≠ [] then setVar s.blk s.next (some (L'.map some)) else s.blk) w nx s1 →
        wp (do
          whenE (a.size ≠ 0) (release E a.ptr a.size)
          let b ← obj x
          setObj x (some ⟨n, if n = 0 then none else b.ptr⟩) : EM α Unit)
        (fun _ s' => ∃ L' : List α, L'.length = n ∧ (L.length = n → L' = L) ∧ (pre = true → L' = L.take n ++ List.replicate (n - L.length) init) ∧ Shows s' (setVar v x (some L')) ∧ (NoLeak s → NoLeak s'))
        (ResizeThrew E s x n L) s1 := by
      intro L' s1 nx w hL' hpre hnx1 hnx2 ⟨q, hw, hq⟩ hat
      have last : ∀ (bl : Nat → Option (List (Option α))) (s2 : St α), At bl w nx s2 → (bl = fun q => if L ≠ [] ∧ a.ptr = some q then none else if L' ≠ [] ∧ q = s.next then some (L'.map some) else s.blk q) →
          wp (do
            let b ← obj x
            setObj x (some ⟨n, if n = 0 then none else b.ptr⟩) : EM α Unit)
          (fun _ s' => ∃ L' : List α, L'.length = n ∧ (L.length = n → L' = L) ∧ (pre = true → L' = L.take n ++ List.replicate (n - L.length) init) ∧ Shows s' (setVar v x (some L')) ∧ (NoLeak s → NoLeak s'))
          (ResizeThrew E s x n L) s2 := by
        intro bl s2 hat2 hbl
        apply wp_bind
        refine wp_mono (wp_obj x ⟨a.size, q⟩ hat2 (by rw [hw, setVar_same])) ?_ (fun _ h => h.elim)
        rintro _ s3 ⟨rfl, hat3⟩
        refine wp_mono (wp_setObj x _ hat3) (fun _ s4 h4 => ?_) (fun _ h => h.elim)
        rw [hw, setVar_idem] at h4
        dsimp only at h4
        obtain ⟨k1, k2⟩ := resize_done h hv ha hsz L' (if n = 0 then none else q) nx hnx1
          (fun hne' => ⟨by rw [if_neg (fun e => hne' (List.length_eq_zero_iff.1 (by omega)))]; exact hq hne', hnx2 hne'⟩)
          (by rw [h4.2.1, hL']) h4.2.2 (by rw [h4.1]; exact hbl)
        exact ⟨L', hL', fun e => absurd (by omega : n = a.size) hne, hpre, k1, k2⟩
      apply wp_bind
      apply wp_when
      · intro h0
        have hL : L ≠ [] := by rintro rfl; exact h0 hsz
        obtain ⟨p, hp, hblk⟩ := hb hL
        have hlt : p < s.next := h.own_lt ⟨a, ha, h0, hp⟩
        rw [hp, hsz]
        refine wp_mono (wp_release E p L hat (by
          split
          · rw [setVar_ne _ _ (Nat.ne_of_lt hlt)]; exact hblk
          · exact hblk)) (fun _ s2 h2 => last _ s2 h2 ?_) (fun _ h => h.elim)
        funext r
        by_cases e : r = p
        · subst e; rw [setVar_same, if_pos (show L ≠ [] ∧ a.ptr = some r from ⟨hL, hp⟩)]
        · rw [setVar_ne _ _ e, if_neg (show ¬ (L ≠ [] ∧ a.ptr = some r) from fun hh => e (by have := hh.2; rw [hp] at this; cases this; rfl))]
          exact newblk L' s.next s.blk r
      · intro h0
        have hL : L = [] := List.length_eq_zero_iff.1 (by omega)
        refine last _ s1 hat ?_
        funext r
        rw [if_neg (show ¬ (L ≠ [] ∧ a.ptr = some r) from fun hh => hh.1 hL)]
        exact newblk L' s.next s.blk r
    apply wp_bind
    apply wp_when
    · intro hn0
      apply wp_bind
      refine wp_mono (wp_allocate E n hat0) ?_ (fun s' h' => .inl h')
      rintro _ s1 ⟨rfl, c, hc, htriv, hat1⟩
      apply wp_bind
      refine wp_mono (wp_setObj x _ hat1) (fun _ s2 h2 => ?_) (fun _ h => h.elim)
      refine wp_mono (wp_build E a L hsz (fun hL => ?_) c hc htriv h2 (setVar_same _ _ _) init pre) ?_ (fun s3 h3 => .inr ⟨h3.2, fun e => by omega, ?_⟩)
      · obtain ⟨p, hp, hblk⟩ := hb hL
        have hne' : p ≠ s.next := Nat.ne_of_lt (h.own_lt ⟨a, ha, by rw [hsz]; exact len_ne hL, hp⟩)
        exact ⟨p, hp, hne', by rw [setVar_ne _ _ hne']; exact hblk⟩
      · rintro _ s3 ⟨L', hL', hpre, h3⟩
        have hL0 : L' ≠ [] := by rintro rfl; exact hn0 hL'.symm
        refine fin L' s3 (s.next + 1) _ hL' hpre (Nat.le_succ _) (fun _ => rfl) ⟨some s.next, rfl, fun _ => rfl⟩ ?_
        rw [if_pos hL0]
        rw [setVar_idem] at h3
        exact h3
      · obtain ⟨⟨c', h3⟩, _⟩ := h3
        rw [setVar_idem, hsz] at h3
        exact ⟨c', h3⟩
    · intro hn0
      have hn0' : n = 0 := by omega
      refine fin [] s0 s.next s.var hn0'.symm (fun _ => by rw [hn0']; simp) (Nat.le_refl _) (fun e => absurd rfl e) ⟨a.ptr, ?_, fun e => absurd rfl e⟩ ?_
      · rw [setVar_self]; exact ha
      · rw [if_neg (fun e => e rfl)]; exact hat0
  · intro hne
    have hne' : n = a.size := by omega
    refine ⟨L, by omega, fun _ => rfl, fun _ => ?_, ?_, noleak_at hat0⟩
    · rw [List.take_of_length_le (by omega), show n - L.length = 0 from by omega]; simp
    · rw [setVar_self _ _ _ hv]; exact shows_at h hat0

theorem step_resize {s : St α} {v : View α} (h : Shows s v) (x n : Nat) (hx : v x ≠ none) : wp (step E (.resize x n)) (fun _ => Done s v (.resize x n)) (Failed E s v (.resize x n)) s := by
  obtain ⟨L, a, hv, _⟩ := h.obj hx
  refine wp_mono (wp_resize E h x n E.dflt false L hv) ?_ ?_
  · rintro _ s' ⟨L', hl, hsame, _, h1, h2⟩
    exact ⟨_, ⟨L', hl, fun K hK hn => by rw [hv] at hK; cases hK; exact hsame hn, rfl⟩, h1, h2⟩
  · rintro s' (h' | ⟨h', hno, c', hat⟩)
    · exact .inl h'
    · exact .inr ⟨h', .inr ⟨fun hst => absurd (hst L hv) hno, resize_lost h x _ _ hat⟩⟩

theorem step_resizeInit {s : St α} {v : View α} (h : Shows s v) (x n : Nat) (t : α) (hx : v x ≠ none) :
    wp (step E (.resizeInit x n t)) (fun _ => Done s v (.resizeInit x n t)) (Failed E s v (.resizeInit x n t)) s := by
  obtain ⟨L, a, hv, _⟩ := h.obj hx
  refine wp_mono (wp_resize E h x n t true L hv) ?_ ?_
  · rintro _ s' ⟨L', hl, _, hpre, h1, h2⟩
    refine ⟨_, ⟨L, hv, rfl⟩, ?_, h2⟩
    rw [← hpre rfl]; exact h1
  · rintro s' (h' | ⟨h', hno, c', hat⟩)
    · exact .inl h'
    · exact .inr ⟨h', .inr ⟨fun hst => absurd (hst L hv) hno, resize_lost h x _ _ hat⟩⟩

theorem set_take_drop (K M : List α) (k : Nat) (hl : M.length = K.length) (hk : k < K.length) : (K.take k ++ M.drop k).set k K[k] = K.take (k + 1) ++ M.drop (k + 1) := by
  apply List.ext_getElem?
  intro j
  have l1 : (K.take k).length = k := by rw [List.length_take]; omega
  have l2 : (K.take (k + 1)).length = k + 1 := by rw [List.length_take]; omega
  rcases Nat.lt_trichotomy j k with h | h | h
  · rw [List.getElem?_set_ne (by omega), List.getElem?_append_left (by omega), List.getElem?_append_left (by omega), List.getElem?_take_of_lt h, List.getElem?_take_of_lt (by omega)]
  · subst h
    rw [List.getElem?_set_self (by rw [List.length_append, l1, List.length_drop]; omega), List.getElem?_append_left (by omega), List.getElem?_take_of_lt (by omega), List.getElem?_eq_getElem hk]
  · rw [List.getElem?_set_ne (by omega), List.getElem?_append_right (by omega), List.getElem?_append_right (by omega), l1, l2, List.getElem?_drop, List.getElem?_drop]
    congr 1
    omega

theorem step_assign {s : St α} {v : View α} (h : Shows s v) (x y : Nat) (hx : v x ≠ none) (hy : v y ≠ none) :
    wp (step E (.assign x y)) (fun _ => Done s v (.assign x y)) (Failed E s v (.assign x y)) s := by
  obtain ⟨L, a, hv, ha, _, _⟩ := h.obj hx
  obtain ⟨K, c, hvy, hc, hcs, _⟩ := h.obj hy
  show wp (assign E x y) _ _ s
  unfold assign
  apply wp_bind
  refine wp_mono (wp_obj y c (at_refl s) hc) ?_ (fun _ h => h.elim)
  rintro c s0 ⟨rfl, hat0⟩
  apply wp_bind
  refine wp_mono (wp_obj x a hat0 ha) ?_ (fun _ h => h.elim)
  rintro a s1 ⟨rfl, hat1⟩
  apply wp_when
  · intro hxy
    apply wp_bind
    have hat1' : s1.blk = s.blk ∧ s1.var = s.var ∧ s1.next = s.next := hat1
    refine wp_mono (wp_resize E (shows_at h hat1) x c.size E.dflt false L hv) ?_ ?_
    · rintro _ s2 ⟨M, hM, _, _, hsh, hnl⟩
      have hnl' : NoLeak s → NoLeak s2 := fun hn => hnl (noleak_at hat1 hn)
      obtain ⟨a2, ha2, hs2, hb2⟩ := hsh.live x M (setVar_same _ _ _)
      obtain ⟨c2, hc2, ht2, hd2⟩ := hsh.live y K (by rw [setVar_ne _ _ (Ne.symm hxy)]; exact hvy)
      apply wp_bind
      refine wp_mono (wp_obj x a2 (at_refl s2) ha2) ?_ (fun _ h => h.elim)
      rintro a2 s3 ⟨rfl, hat3⟩
      apply wp_bind
      refine wp_mono (wp_obj y c2 hat3 hc2) ?_ (fun _ h => h.elim)
      rintro c2 s4 ⟨rfl, hat4⟩
      by_cases hK : K = []
      · subst hK
        rw [ht2]
        have hM0 : M = [] := List.length_eq_zero_iff.1 (by rw [hM, hcs]; rfl)
        refine ⟨_, rfl, ?_, fun hn => noleak_at hat4 (hnl' hn)⟩
        rw [hvy, ← hM0]
        exact shows_at hsh hat4
      · have hM0 : M ≠ [] := by rintro rfl; exact len_ne hK (by rw [← hcs, ← hM]; rfl)
        have hMK : M.length = K.length := by rw [hM, hcs]
        obtain ⟨p, hp, hpb⟩ := hb2 hM0
        obtain ⟨q, hq, hqb⟩ := hd2 hK
        have hpq : q ≠ p := by
          rintro rfl
          exact hxy (hsh.apart x y a2 c2 q ha2 hc2 (by rw [hs2]; exact len_ne hM0) (by rw [ht2]; exact len_ne hK) hp hq)
        rw [hp, hq, ht2]
        have hl : ∀ k, k ≤ K.length → (K.take k ++ M.drop k).length = K.length := fun k hk => by rw [List.length_append, List.length_take, List.length_drop]; omega
        have part : ∀ k s', k ≤ K.length → At (setVar s2.blk p (some ((K.take k ++ M.drop k).map some))) s2.var s2.next s' →
            Shows s' (setVar v x (some (K.take k ++ M.drop k))) ∧ (NoLeak s → NoLeak s') := by
          intro k s' hk hat
          obtain ⟨r1, r2⟩ := shows_cells hsh ha2 hs2 hM0 hp (K.take k ++ M.drop k) (by rw [hl k hk]; exact hMK.symm) hat
          rw [setVar_idem] at r1
          exact ⟨r1, fun hn => r2 (hnl' hn)⟩
        refine wp_mono (wp_loop (T := Failed E s v (.assign x y)) (fun k s' => At (setVar s2.blk p (some ((K.take k ++ M.drop k).map some))) s2.var s2.next s') K.length s4 ?_ ?_) ?_ (fun _ h => h)
        · rw [List.take_zero, List.drop_zero, List.nil_append, setVar_self _ _ _ hpb]
          exact hat4
        · intro k s' hk hat
          apply wp_bind
          refine wp_mono (wp_read q k K hat (by rw [setVar_ne _ _ hpq]; exact hqb) hk) ?_ (fun _ h => h.elim)
          rintro _ s5 ⟨rfl, hat5⟩
          refine wp_mono (wp_assignCell E p k K[k] (K.take k ++ M.drop k) hat5 (setVar_same _ _ _) (by rw [hl k (by omega)]; exact hk)) (fun _ s6 h6 => ?_) (fun s6 h6 => ?_)
          · rw [setVar_idem, set_take_drop K M k hMK hk] at h6
            exact h6
          · obtain ⟨r1, r2⟩ := part k s6 (by omega) h6.1
            exact .inr ⟨h6.2, .inl ⟨_, r1, fun z hz => setVar_ne _ _ hz, fun _ => r2⟩⟩
        · intro _ s' hat
          obtain ⟨r1, r2⟩ := part K.length s' (Nat.le_refl _) hat
          refine ⟨_, rfl, ?_, r2⟩
          rw [List.take_length, List.drop_of_length_le (by omega), List.append_nil] at r1
          rw [hvy]; exact r1
    · rintro s' (⟨h', hk⟩ | ⟨h', hno, c', hat⟩)
      · rw [hat1.1, hat1.2.1, hat1.2.2] at h'
        exact .inl ⟨h', hk⟩
      · exact .inr ⟨h', .inr ⟨fun hst => absurd (hst L K hv hvy) (by rw [hcs] at hno; exact hno), resize_lost (shows_at h hat1) x _ _ hat⟩⟩
  · intro hxy
    have e : x = y := by
      rcases Nat.decEq x y with h' | h'
      · exact absurd h' hxy
      · exact h'
    subst e
    exact ⟨_, rfl, by rw [setVar_self _ _ _ rfl]; exact shows_at h hat1, fun hn => noleak_at hat1 hn⟩

/-- Every legal operation, with any pattern of failures. -/
theorem step_spec {s : St α} {v : View α} (h : Shows s v) (op : Op α) (hl : Legal v op) : wp (step E op) (fun _ => Done s v op) (Failed E s v op) s := by
  cases op with
  | ctor x n => exact step_ctor E h x n hl
  | ctorInit x n t => exact step_ctorInit E h x n t hl
  | copyCtor x y => exact step_copyCtor E h x y hl.1 hl.2
  | moveCtor x y => exact step_moveCtor E h x y hl.1 hl.2
  | dtor x => exact step_dtor E h x hl
  | resize x n => exact step_resize E h x n hl
  | resizeInit x n t => exact step_resizeInit E h x n t hl
  | assign x y => exact step_assign E h x y hl.1 hl.2
  | swap x y => exact step_swap E h x y hl.1 hl.2
  | store x i t =>
    obtain ⟨L, hv, hi⟩ := hl
    exact step_store E h x i t L hv hi

end Ublas.Exc
