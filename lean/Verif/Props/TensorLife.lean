import Verif.Spec.TensorLife
import Verif.Props.Tensor
import Mathlib.Tactic.Ring
import Mathlib.Tactic.SplitIfs
import Mathlib.Data.Int.Basic
/-! # C106: the life of tensors -/
namespace Ublas.Tens.Life
variable {R : Type}

/-- The extents of an empty tensor. -/
def emptyExt : Kind → List Nat
  | .dyn => []
  | .rank N => List.replicate N 0

/-- The objects represent the values. -/
def Rep (k : Kind) (L : Layout) (t : Tensor R) : Val R → Prop
  | none => t.data = [] ∧ t.extents = emptyExt k
  | some (e, f) => Holds L t e f ∧ ∀ N, k = .rank N → e.length = N

theorem product_empty (k : Kind) : product (emptyExt k) = 0 := by
  cases k with
  | dyn => rfl
  | rank N =>
    cases N with
    | zero => rfl
    | succ N =>
      unfold product emptyExt
      rw [if_neg (by simp), ← List.prod_eq_foldl]
      simp

theorem Rep.shows {k : Kind} {L : Layout} {t : Tensor R} {v : Val R} (h : Rep k L t v) : Shows t v := by
  match v, h with
  | none, ⟨h1, h2⟩ => exact ⟨by rw [h1]; rfl, by rw [h2]; exact product_empty k⟩
  | some (e, f), h => exact ⟨h.1.extents, h.1.size, fun i hi => (C70_access h.1 hi (f i)).1⟩

/-- The state corresponds to the values, except for the objects `d`. -/
def Related (k : Kind) (L : Layout) (s : Objs R) (v : Vals R) (d : Nat → Bool) : Prop :=
  ∀ x, match v x with
    | none => s x = none
    | some w => ∃ t, s x = some t ∧ (d x = false → Rep k L t w)

theorem Related.dead {k : Kind} {L : Layout} {s : Objs R} {v : Vals R} {d : Nat → Bool} (h : Related k L s v d) {x : Nat} (hx : v x = none) : s x = none := by
  have := h x; rw [hx] at this; exact this

theorem Related.live {k : Kind} {L : Layout} {s : Objs R} {v : Vals R} {d : Nat → Bool} (h : Related k L s v d) {x : Nat} {w : Val R} (hx : v x = some w) :
    ∃ t, s x = some t ∧ (d x = false → Rep k L t w) := by
  have := h x; rw [hx] at this; exact this

/-- One object changes. -/
theorem Related.put {k : Kind} {L : Layout} {s : Objs R} {v : Vals R} {d d' : Nat → Bool} (h : Related k L s v d) (x : Nat) {t : Tensor R} {w : Val R} (hd : ∀ y, y ≠ x → d' y = false → d y = false)
    (ht : d' x = false → Rep k L t w) : Related k L (setObj s x (some t)) (put v x (some w)) d' := fun y => by
  by_cases hy : y = x
  · subst hy
    simp only [Life.put, setObj, if_true]
    exact ⟨t, rfl, ht⟩
  · simp only [Life.put, setObj, if_neg hy]
    have := h y
    cases hv : v y with
    | none => rw [hv] at this; exact this
    | some w =>
      rw [hv] at this
      obtain ⟨u, h1, h2⟩ := this
      exact ⟨u, h1, fun h3 => h2 (hd y hy h3)⟩

theorem Related.remove {k : Kind} {L : Layout} {s : Objs R} {v : Vals R} {d d' : Nat → Bool} (h : Related k L s v d) (x : Nat) (hd : ∀ y, y ≠ x → d' y = false → d y = false) :
    Related k L (setObj s x none) (Life.put v x none) d' := fun y => by
  by_cases hy : y = x
  · subst hy
    simp only [Life.put, setObj, if_true]
  · simp only [Life.put, setObj, if_neg hy]
    have := h y
    cases hv : v y with
    | none => rw [hv] at this; exact this
    | some w =>
      rw [hv] at this
      obtain ⟨u, h1, h2⟩ := this
      exact ⟨u, h1, fun h3 => h2 (hd y hy h3)⟩

theorem extentsOf_ok {k : Kind} {e : List Nat} (h : Shape k e) : extentsOf k e = .ok e := by
  cases k with
  | dyn => exact mkExtents_ok h.1
  | rank N => rw [extentsOf, if_neg (by rw [h.2 N rfl]; simp)]; exact mkExtents_ok h.1

theorem extentsOf_throws {k : Kind} {e : List Nat} (h : ¬ Shape k e) : extentsOf k e = .error .stdException := by
  have hm : ∀ e : List Nat, (¬ ∀ n ∈ e, 0 < n) → mkExtents e = .error .stdException := fun e h => by rw [mkExtents, if_neg (by rwa [isValid_iff])]
  cases k with
  | dyn => exact hm e fun hp => h ⟨hp, by simp⟩
  | rank N =>
    unfold extentsOf
    by_cases hl : e.length = N
    · simp only [hl, ne_eq, not_true, if_false]
      exact hm e fun hp => h ⟨hp, fun M hM => by cases hM; exact hl⟩
    · simp only [ne_eq, hl, not_false_iff, if_true]

theorem Shape.nil {k : Kind} (h : Shape k []) : emptyExt k = [] := by
  cases k with
  | dyn => rfl
  | rank N => have := h.2 N rfl; simp at this; subst this; rfl

/-- A tensor with given extents and memory. -/
theorem rep_val {k : Kind} {L : Layout} {e w : List Nat} {a : List R} {f : List Nat → R} (hs : Shape k e) (hw : toStrides L e = .ok w) (ha : a.length = product e)
    (hf : e ≠ [] → ∀ i, Valid e i → a[pos L e i]? = some (f i)) : Rep k L ⟨e, w, a⟩ (val e f) := by
  unfold val
  by_cases he : e = []
  · subst he
    rw [if_pos rfl]
    exact ⟨List.length_eq_zero_iff.1 (by rw [ha]; rfl), hs.nil.symm⟩
  · rw [if_neg he]
    exact ⟨⟨rfl, hs.1, he, hw, by rw [ha, product_eq he], hf he⟩, hs.2⟩

theorem getD_some {a : List R} {n : Nat} (z : R) (h : n < a.length) : a[n]? = some (a.getD n z) := by
  rw [List.getD_eq_getElem?_getD, List.getElem?_eq_getElem h]; rfl

theorem product_val (e : List Nat) : product e = if e = [] then 0 else count e := by
  by_cases he : e = []
  · rw [if_pos he, he]; rfl
  · rw [if_neg he, product_eq he]

theorem obj_ok {s : Objs R} {x : Nat} {t : Tensor R} (h : s x = some t) : obj s x = .ok t := by rw [obj, h]

theorem live_of {v : Vals R} {x : Nat} (h : v x ≠ none) : ∃ w, v x = some w := Option.ne_none_iff_exists'.1 h

theorem two_valid {a b : Nat} {i : List Nat} (h : Valid [a, b] i) : ∃ x y, i = [x, y] ∧ x < a ∧ y < b := by
  rcases h with _ | ⟨h1, _ | ⟨h2, ⟨⟩⟩⟩
  exact ⟨_, _, rfl, h1, h2⟩

/-- Statements that move nothing. -/
theorem keeps {k : Kind} {d : Nat → Bool} {o : Op R} (ho : ∀ z, moved k d o z = d z) (x : Nat) : ∀ y, y ≠ x → moved k d o y = false → d y = false := fun y _ hy => by rw [← ho y]; exact hy

theorem copyOf_ok {dbg : Bool} {k : Kind} {L : Layout} {t : Tensor R} {w : Val R} (h : Rep k L t w) (hc : dbg = true → k ≠ .dyn → w ≠ none) : copyOf dbg k t = .ok t := by
  cases k with
  | dyn => rfl
  | rank N =>
    unfold copyOf
    cases dbg with
    | false => rfl
    | true =>
      match w, h with
      | none, _ => exact absurd rfl (hc rfl (by simp))
      | some (e, f), h =>
        have : isValid t.extents = true := by rw [isValid_iff, h.1.extents]; exact h.1.positive
        simp only [check_true this, bind_ok]

/-- What one statement does. -/
theorem step_ok (dbg : Bool) (k : Kind) (L : Layout) (zero : R) {s : Objs R} {v : Vals R} {d : Nat → Bool} (h : Related k L s v d) {o : Op R} (hl : Legal v o) (hc : Careful dbg k v d o) :
    (match meaning k L zero v o with
    | some v' => ∃ s', step dbg k L s o = .ok s' ∧ Related k L s' v' (moved k d o)
    | none => step dbg k L s o = .error .stdException) := by
  cases o with
  | new x junk =>
    refine ⟨_, rfl, h.put x (keeps (by intro z; cases k <;> rfl) x) fun _ => ?_⟩
    cases k <;> exact ⟨rfl, rfl⟩
  | ofExtents x e a =>
    simp only [meaning, step, ofExtents]
    by_cases hs : Shape k e
    · obtain ⟨w, hw, _⟩ := toStrides_ok L e
      rw [if_pos hs, extentsOf_ok hs]
      simp only [bind_ok, hw]
      refine ⟨_, rfl, h.put x (keeps (by intro z; cases k <;> rfl) x) fun _ => rep_val hs hw (by simp) fun he i hi => ?_⟩
      rw [List.getElem?_replicate, product_eq he, if_pos (pos_lt hi)]
    · rw [if_neg hs, extentsOf_throws hs]; rfl
  | ofArray x e a =>
    simp only [meaning, step, ofArray]
    by_cases hs : Shape k e
    · obtain ⟨w, hw, _⟩ := toStrides_ok L e
      rw [extentsOf_ok hs]
      simp only [bind_ok, hw, hs, true_and, ← product_val]
      by_cases ha : a.length = product e
      · simp only [ha, if_true, ne_eq, not_true, if_false, bind_ok]
        refine ⟨_, rfl, h.put x (keeps (by intro z; cases k <;> rfl) x) fun _ => rep_val hs hw ha fun he i hi => ?_⟩
        exact getD_some zero (by rw [ha, product_eq he]; exact pos_lt hi)
      · simp only [ha, if_false, ne_eq, not_false_iff, if_true, bind_error]
    · rw [if_neg fun hc => hs hc.1, extentsOf_throws hs]; rfl
  | ofMatrix x m =>
    simp only [meaning, step, ofMatrix]
    by_cases hs : Shape k [m.size1, m.size2]
    · obtain ⟨w, hw, _⟩ := toStrides_ok L [m.size1, m.size2]
      rw [if_pos hs, extentsOf_ok hs]
      simp only [bind_ok, hw]
      have hwf : m.data.length = m.size1 * m.size2 := hl.2
      refine ⟨_, rfl, h.put x (keeps (by intro z; cases k <;> rfl) x) fun _ => ⟨⟨rfl, hs.1, by simp, hw, by simp [count, hwf], fun i hi => ?_⟩, hs.2⟩⟩
      obtain ⟨a, b, rfl, ha, hb⟩ := two_valid hi
      have hp := pos_lt (L := L) hi
      have e1 : (orient L).elementRaw a m.size1 b m.size2 = pos L [m.size1, m.size2] [a, b] := by
        cases L with
        | first => simp [orient, Orient.elementRaw, pos, firstPos, Nat.mul_comm]
        | last => simp [orient, Orient.elementRaw, pos, lastPos, count]
      have hp' : pos L [m.size1, m.size2] [a, b] < m.data.length := by rw [hwf]; simpa [count] using hp
      show m.data[_]? = some (match m.get false (orient L) a b with | .ok v => v | .error _ => zero)
      have : m.get false (orient L) a b = .ok m.data[pos L [m.size1, m.size2] [a, b]] := by
        simp only [Dense.get, Orient.element, check_true, ha, hb, bind_ok, pure_eq_ok, e1]
        exact rd_eq_ok.2 (List.getElem?_eq_getElem hp')
      rw [this, List.getElem?_eq_getElem hp']
    · rw [if_neg hs, extentsOf_throws hs]; rfl
  | ofVector x a =>
    simp only [meaning, step, ofVector]
    rw [if_neg hc]
    by_cases hs : Shape k [a.length, 1]
    · obtain ⟨w, hw, _⟩ := toStrides_ok L [a.length, 1]
      rw [if_pos hs, extentsOf_ok hs]
      simp only [bind_ok, hw]
      refine ⟨_, rfl, h.put x (keeps (by intro z; cases k <;> rfl) x) fun _ => ⟨⟨rfl, hs.1, by simp, hw, by simp [count], fun i hi => ?_⟩, hs.2⟩⟩
      obtain ⟨p, q, rfl, ha, hb⟩ := two_valid hi
      have e1 : pos L [a.length, 1] [p, q] = p := by
        have : q = 0 := by omega
        cases L <;> simp [pos, firstPos, lastPos, count, this]
      rw [e1]
      exact getD_some zero ha
    · rw [if_neg hs, extentsOf_throws hs]; rfl
  | copy x y =>
    obtain ⟨w, hw⟩ := live_of hl.2
    obtain ⟨t, h1, h2⟩ := h.live hw
    simp only [meaning, step, obj_ok h1, bind_ok, copyOf_ok (h2 hc.1) fun a b c => hc.2 a b (by rw [hw, c]), hw]
    exact ⟨_, rfl, h.put x (keeps (by intro z; cases k <;> rfl) x) fun _ => h2 hc.1⟩
  | move x y =>
    obtain ⟨w, hw⟩ := live_of hl.2
    obtain ⟨t, h1, h2⟩ := h.live hw
    simp only [meaning, step, obj_ok h1, bind_ok, hw]
    refine ⟨_, rfl, (h.put (d' := d) x (fun _ _ h => h) fun _ => h2 hc).put y (fun z hz hd => ?_) fun hd => ?_⟩
    · cases k with
      | dyn => exact hd
      | rank N => simpa only [moved, if_neg hz] using hd
    · cases k with
      | dyn => exact ⟨rfl, rfl⟩
      | rank N => simp [moved] at hd
  | destroy x =>
    obtain ⟨w, hw⟩ := live_of hl
    obtain ⟨t, h1, h2⟩ := h.live hw
    simp only [meaning, step, obj_ok h1, bind_ok]
    refine ⟨_, rfl, h.remove x fun z hz hd => ?_⟩
    cases k with
    | dyn => exact hd
    | rank N => simpa only [moved, if_neg hz] using hd
  | assign x y =>
    obtain ⟨w, hw⟩ := live_of hl.2
    obtain ⟨t, h1, h2⟩ := h.live hw
    obtain ⟨w', hw'⟩ := live_of hl.1
    obtain ⟨t', h1', h2'⟩ := h.live hw'
    simp only [meaning, step, obj_ok h1, obj_ok h1', bind_ok, copyOf_ok (h2 hc.1) fun a b c => hc.2 a b (by rw [hw, c]), hw]
    refine ⟨_, rfl, h.put x (fun z hz hd => ?_) fun _ => h2 hc.1⟩
    cases k with
    | dyn => exact hd
    | rank N => simpa only [moved, if_neg hz] using hd
  | assignMove x y =>
    obtain ⟨w, hw⟩ := live_of hl.2
    obtain ⟨t, h1, h2⟩ := h.live hw
    obtain ⟨w', hw'⟩ := live_of hl.1
    obtain ⟨t', h1', h2'⟩ := h.live hw'
    simp only [meaning, step, obj_ok h1, obj_ok h1', bind_ok, hw]
    refine ⟨_, rfl, (h.put (d' := fun z => if z = y then (match k with | .dyn => d z | .rank _ => true) else d z) y (fun z hz hd => by simpa [hz] using hd) fun hd => ?_).put x (fun z hz hd => ?_) fun _ => h2 hc⟩
    · cases k with
      | dyn => exact ⟨rfl, rfl⟩
      | rank N => simp at hd
    · cases k with
      | dyn => have : d z = false := hd; simpa using this
      | rank N => simpa only [moved, if_neg hz] using hd
  | swap x y =>
    obtain ⟨w, hw⟩ := live_of hl.1
    obtain ⟨t, h1, h2⟩ := h.live hw
    obtain ⟨w', hw'⟩ := live_of hl.2
    obtain ⟨t', h1', h2'⟩ := h.live hw'
    simp only [meaning, step, obj_ok h1, obj_ok h1', bind_ok, hw, hw']
    exact ⟨_, rfl, (h.put (d' := d) x (fun _ _ h => h) fun _ => h2' hc.2).put y (keeps (by intro z; cases k <;> rfl) y) fun _ => h2 hc.1⟩
  | fill x a =>
    obtain ⟨w, hw⟩ := live_of hl
    obtain ⟨t, h1, h2⟩ := h.live hw
    simp only [meaning, step, obj_ok h1, bind_ok, hw, Option.map_some]
    refine ⟨_, rfl, h.put x (keeps (by intro z; cases k <;> rfl) x) fun _ => ?_⟩
    have h3 := h2 hc
    match w, h3 with
    | none, h3 => exact ⟨by simp [h3.1], h3.2⟩
    | some (e, f), h3 =>
      refine ⟨⟨h3.1.extents, h3.1.positive, h3.1.rank, h3.1.strides, by simp [h3.1.size], fun i hi => ?_⟩, h3.2⟩
      rw [List.getElem?_replicate, if_pos (by rw [h3.1.size]; exact pos_lt hi)]
  | assignArray x a =>
    obtain ⟨w, hw⟩ := live_of hl
    obtain ⟨t, h1, h2⟩ := h.live hw
    have h3 := h2 hc
    simp only [meaning, step, obj_ok h1, bind_ok, hw]
    match w, h3, hw with
    | none, h3, hw =>
      dsimp only
      by_cases ha : a = []
      · subst ha
        rw [if_pos rfl, if_neg (by simp [h3.1])]
        refine ⟨_, rfl, ?_⟩
        have hmv : ∀ z, moved k d (Op.assignArray x ([] : List R)) z = d z := by intro z; cases k <;> rfl
        have := h.put x (t := { t with data := ([] : List R) }) (w := none) (keeps hmv x) fun _ => ⟨rfl, h3.2⟩
        have e1 : Life.put v x (some none) = v := by funext z; unfold Life.put; split_ifs with hz <;> simp [hz, hw]
        rwa [e1] at this
      · rw [if_neg ha, if_pos (by simpa [h3.1] using ha)]
    | some (e, f), h3, hw =>
      dsimp only
      rw [h3.1.size]
      by_cases ha : a.length = count e
      · rw [if_pos ha, if_neg (by simp [ha])]
        refine ⟨_, rfl, h.put x (keeps (by intro z; cases k <;> rfl) x) fun _ => ⟨⟨h3.1.extents, h3.1.positive, h3.1.rank, h3.1.strides, ha, fun i hi => ?_⟩, h3.2⟩⟩
        exact getD_some zero (by rw [ha]; exact pos_lt hi)
      · rw [if_neg ha, if_pos ha]
  | put x i a =>
    obtain ⟨e, f, hw, hi⟩ := hl
    obtain ⟨t, h1, h2⟩ := h.live hw
    have h3 := h2 hc
    obtain ⟨_, t', h4, h5⟩ := C70_access h3.1 hi a
    simp only [meaning, step, obj_ok h1, bind_ok, hw, h4]
    exact ⟨_, rfl, h.put x (keeps (by intro z; cases k <;> rfl) x) fun _ => ⟨h5, h3.2⟩⟩
  | apply x y fn order =>
    obtain ⟨hy, hx⟩ := hl
    obtain ⟨w', hw'⟩ := live_of hy
    obtain ⟨u, h1', h2'⟩ := h.live hw'
    have h3' := h2' hc.2
    have hmv : ∀ z, moved k d (Op.apply x y fn order) z = d z := by intro z; cases k <;> rfl
    rcases hx with ⟨hx, rfl⟩ | ⟨e, f, hx, hcnt, hord⟩
    · obtain ⟨t, h1, h2⟩ := h.live hx
      have h3 := h2 hc.1
      simp only [meaning, step, obj_ok h1, obj_ok h1', bind_ok, hx, hw']
      match w', h3', hw' with
      | none, h3', hw' =>
        dsimp only
        have : eval fn t (if x = y then .self L else .leaf L u) [] = .ok t := by
          unfold eval
          have ha : (if x = y then TExp.self L else TExp.leaf L u).allEqual t.extents t.extents = true := by
            split_ifs <;> simp [TExp.allEqual, h3.2, h3'.2]
          rw [ha, if_neg (by simp), if_pos (by simp [h3.1])]
          rfl
        rw [this]
        refine ⟨_, rfl, ?_⟩
        have := h.put x (t := t) (w := none) (keeps hmv x) fun _ => h3
        have e1 : Life.put v x (some none) = v := by funext z; unfold Life.put; split_ifs with hz <;> simp [hz, hx]
        rwa [e1] at this
      | some (e', g), h3', hw' =>
        dsimp only
        have hxy : x ≠ y := by rintro rfl; rw [hx] at hw'; simp at hw'
        rw [if_neg hxy]
        have : eval fn t (.leaf L u) [] = .error .stdException := by
          unfold eval
          rw [if_pos]
          · have h0 : u.extents ≠ t.extents := by
              intro hc
              have e1 := product_empty k
              rw [← h3.2, ← hc, h3'.1.extents, product_eq h3'.1.rank] at e1
              have := count_pos h3'.1.positive
              omega
            simpa [TExp.allEqual] using h0
        rw [this]; rfl
    · obtain ⟨t, h1, h2⟩ := h.live hx
      have h3 := h2 hc.1
      simp only [meaning, step, obj_ok h1, obj_ok h1', bind_ok, hx, hw']
      match w', h3', hw' with
      | none, h3', hw' =>
        dsimp only
        have hxy : x ≠ y := by rintro rfl; rw [hx] at hw'; simp at hw'
        rw [if_neg hxy]
        have : eval fn t (.leaf L u) order = .error .stdException := by
          unfold eval
          rw [if_pos]
          · have h0 : u.extents ≠ t.extents := by
              intro hc
              have e1 := product_empty k
              rw [← h3'.2, hc, h3.1.extents, product_eq h3.1.rank] at e1
              have := count_pos h3.1.positive
              omega
            simpa [TExp.allEqual] using h0
        rw [this]; rfl
      | some (e', g), h3', hw' =>
        dsimp only
        by_cases hee : e = e'
        · subst hee
          rw [if_pos rfl]
          have hm : (if x = y then TExp.self L else TExp.leaf L u).Means L e f g := by
            by_cases hxy : x = y
            · subst hxy
              rw [if_pos rfl]
              rw [hx] at hw'
              simp only [Option.some.injEq, Prod.mk.injEq, true_and] at hw'
              subst hw'
              exact .self
            · rw [if_neg hxy]; exact .leaf h3'.1
          obtain ⟨t', h4, h5⟩ := C72_eval_same_layout_partial h3.1 hm hcnt fn hord
          rw [h4]
          exact ⟨_, rfl, h.put x (keeps hmv x) fun _ => ⟨h5, h3.2⟩⟩
        · rw [if_neg hee]
          have hxy : x ≠ y := by
            rintro rfl
            rw [hx] at hw'
            simp only [Option.some.injEq, Prod.mk.injEq] at hw'
            exact hee hw'.1
          rw [if_neg hxy]
          have : eval fn t (.leaf L u) order = .error .stdException := C72_shapes (.leaf (by rw [h3'.1.extents, h3.1.extents]; exact fun c => hee c.symm)) fn order
          rw [this]; rfl

theorem run_ok (dbg : Bool) (k : Kind) (L : Layout) (zero : R) (os : List (Op R)) : ∀ {s : Objs R} {v : Vals R} {d : Nat → Bool}, Related k L s v d → LegalAll k L zero v os → CarefulAll dbg k L zero v d os →
    ∃ s', run dbg k L s os = .ok (s', (meanings k L zero v os).2) ∧ Related k L s' (meanings k L zero v os).1 (movedAll k L zero v d os) := by
  induction os with
  | nil => exact fun h _ _ => ⟨_, rfl, h⟩
  | cons o os ih =>
    intro s v d h hl hc
    obtain ⟨hl1, hl2⟩ := hl
    obtain ⟨hc1, hc2⟩ := hc
    have h1 := step_ok dbg k L zero h hl1 hc1
    simp only [meanings, movedAll, run, stepC]
    cases hm : meaning k L zero v o with
    | none =>
      rw [hm] at h1 hl2 hc2
      obtain ⟨s', h3, h4⟩ := ih h hl2 hc2
      simp only [h1, bind_ok, h3]
      exact ⟨s', rfl, h4⟩
    | some v' =>
      rw [hm] at h1 hl2 hc2
      obtain ⟨s1, h1, h2⟩ := h1
      obtain ⟨s', h3, h4⟩ := ih h2 hl2 hc2
      simp only [h1, bind_ok, h3]
      exact ⟨s', rfl, h4⟩

theorem related_empty (k : Kind) (L : Layout) : Related k L (fun _ => none : Objs R) (fun _ => none) (fun _ => false) := fun _ => rfl

theorem careful_dyn (dbg : Bool) (L : Layout) (zero : R) (os : List (Op R)) : ∀ v, CarefulAll dbg .dyn L zero v (fun _ => false) os := by
  induction os with
  | nil => exact fun _ => trivial
  | cons o os ih =>
    intro v
    refine ⟨by cases o <;> simp [Careful], ?_⟩
    cases meaning .dyn L zero v o with
    | none => exact ih v
    | some v' => exact ih v'

theorem movedAll_dyn (L : Layout) (zero : R) (os : List (Op R)) : ∀ v, movedAll .dyn L zero v (fun _ => false) os = fun _ => false := by
  induction os with
  | nil => exact fun _ => rfl
  | cons o os ih =>
    intro v
    simp only [movedAll]
    cases meaning .dyn L zero v o with
    | none => exact ih v
    | some v' => exact ih v'

/-- **C106** for tensors with dynamic extents.  Whatever legal program is run: exactly the statements that have to throw do throw and nothing else goes wrong, and afterwards every live object shows the
value it should have (copies are independent, moved-from objects are empty, `size ()` is the number of multi-indices of `extents ()`). -/
theorem C106_dynamic (dbg : Bool) (L : Layout) (zero : R) (os : List (Op R)) (hl : LegalAll .dyn L zero (fun _ => none) os) :
    ∃ s, run dbg .dyn L (fun _ => none) os = .ok (s, (meanings .dyn L zero (fun _ => none) os).2) ∧
      ∀ x, match (meanings .dyn L zero (fun _ => none) os).1 x with
        | none => s x = none
        | some w => ∃ t, s x = some t ∧ Shows t w := by
  obtain ⟨s, h1, h2⟩ := run_ok dbg .dyn L zero os (related_empty .dyn L) hl (careful_dyn dbg L zero os _)
  refine ⟨s, h1, fun x => ?_⟩
  have := h2 x
  cases hm : (meanings .dyn L zero (fun _ => none) os).1 x with
  | none => rw [hm] at this; exact this
  | some w =>
    rw [hm] at this
    obtain ⟨t, h3, h4⟩ := this
    exact ⟨t, h3, (h4 (by rw [movedAll_dyn])).shows⟩

/-- **C106** for tensors with a fixed number of extents, without the parts that fail: programs that do not look into moved-from objects, do not copy empty tensors while `assert` is active, and do not
build a tensor of one extent from a vector.  Missing: exactly these (see the refutations below). -/
theorem C106_static_rank_partial (dbg : Bool) (N : Nat) (L : Layout) (zero : R) (os : List (Op R)) (hl : LegalAll (.rank N) L zero (fun _ => none) os)
    (hc : CarefulAll dbg (.rank N) L zero (fun _ => none) (fun _ => false) os) :
    ∃ s, run dbg (.rank N) L (fun _ => none) os = .ok (s, (meanings (.rank N) L zero (fun _ => none) os).2) ∧
      ∀ x, match (meanings (.rank N) L zero (fun _ => none) os).1 x with
        | none => s x = none
        | some w => ∃ t, s x = some t ∧ (movedAll (.rank N) L zero (fun _ => none) (fun _ => false) os x = false → Shows t w) := by
  obtain ⟨s, h1, h2⟩ := run_ok dbg (.rank N) L zero os (related_empty _ L) hl hc
  refine ⟨s, h1, fun x => ?_⟩
  have := h2 x
  cases hm : (meanings (.rank N) L zero (fun _ => none) os).1 x with
  | none => rw [hm] at this; exact this
  | some w =>
    rw [hm] at this
    obtain ⟨t, h3, h4⟩ := this
    exact ⟨t, h3, fun h5 => (h4 h5).shows⟩

/-- A moved-from tensor with a fixed number of extents keeps its extents but has no elements: whatever value it is said to have, it does not show it. -/
theorem C106_moved_from_refuted {L : Layout} {N : Nat} {s : Objs R} {x y : Nat} {t : Tensor R} {e : List Nat} {f : List Nat → R} (dbg : Bool) (hs : s y = some t) (ht : Holds L t e f) :
    ∃ s' t', step dbg (.rank N) L s (.move x y) = .ok s' ∧ s' y = some t' ∧ t'.extents = e ∧ t'.data.length = 0 ∧ (∀ w, ¬ Shows t' w) ∧ ∀ i, Valid e i → t'.at_ i = .error .stdException := by
  refine ⟨_, ⟨t.extents, t.strides, []⟩, by simp only [step, obj_ok hs, bind_ok]; rfl, by simp [setObj, movedFrom], ht.extents, rfl, fun w hw => ?_, fun i hi => ?_⟩
  · match w, hw with
    | none, hw =>
      have := hw.2
      dsimp only at this
      rw [ht.extents, product_eq ht.rank] at this
      have := count_pos ht.positive
      omega
    | some (e', g), hw =>
      obtain ⟨h1, h2, _⟩ := hw
      dsimp only at h1 h2
      rw [ht.extents] at h1
      subst h1
      have := count_pos ht.positive
      simp at h2
      omega
  · have hf := (C70_access ht hi (f i)).1
    unfold Tensor.at_ at hf ⊢
    have e1 : Tensor.flat (R := R) ⟨t.extents, t.strides, []⟩ i = t.flat i := rfl
    rw [e1]
    cases hfl : t.flat i with
    | error g => rw [hfl] at hf; simp at hf
    | ok n => simp [vectorAt]

/-- Copying a default constructed tensor with a fixed, positive number of extents fails an assertion (debug builds). -/
theorem C106_copy_empty_refuted {N : Nat} (hN : 0 < N) (L : Layout) (zero : R) (x y : Nat) (hxy : x ≠ y) (junk : List Nat) :
    LegalAll (R := R) (.rank N) L zero (fun _ => none) [.new y junk, .copy x y] ∧ run (R := R) true (.rank N) L (fun _ => none) [.new y junk, .copy x y] = .error .internalLogic := by
  constructor
  · simp [LegalAll, Legal, meaning, put, hxy]
  · have : isValid (List.replicate N 0) = false := by
      rw [Bool.eq_false_iff, ne_eq, isValid_iff]
      intro h
      have := h 0 (List.mem_replicate.2 ⟨by omega, rfl⟩)
      omega
    simp [run, stepC, step, obj, setObj, fresh, copyOf, check, this]

/-- A tensor of one extent cannot be built from a vector: the constructor asks for the two extents `(n, 1)`. -/
theorem C106_from_vector_refuted (L : Layout) (x : R) (v : List R) : ofVector (.rank 1) L (x :: v) = .error .stdException := by
  simp [ofVector, extentsOf]

/-- A program over dynamic tensors: build from a matrix, copy, change the copy, move it, assign, add; one statement throws. -/
example : let os : List (Op ℤ) := [.ofMatrix 0 ⟨2, 3, [1, 2, 3, 4, 5, 6]⟩, .copy 1 0, .put 1 [1, 2] 60, .move 2 1, .ofArray 3 [2, 2] [7, 8], .apply 0 2 (· + ·) [5, 0, 3, 1, 2, 4], .assign 1 0, .fill 0 9]
    LegalAll .dyn .first 0 (fun _ => none) os ∧
    ((run true .dyn .first (fun _ => none) os).map fun r => (r.1 0, r.1 1, r.1 2, r.1 3, r.2)) =
      .ok (some ⟨[2, 3], [1, 2], [9, 9, 9, 9, 9, 9]⟩, some ⟨[2, 3], [1, 2], [2, 4, 6, 8, 10, 66]⟩, some ⟨[2, 3], [1, 2], [1, 2, 3, 4, 5, 60]⟩, none, [false, false, false, false, true, false, false, false]) := by
  refine ⟨⟨⟨rfl, rfl⟩, ⟨rfl, Option.some_ne_none _⟩, ⟨_, _, rfl, .cons (by decide) (.cons (by decide) .nil)⟩, ⟨rfl, Option.some_ne_none _⟩, rfl, ?_⟩, by rfl⟩
  exact ⟨⟨Option.some_ne_none _, .inr ⟨_, _, rfl, by decide, by decide⟩⟩, ⟨Option.some_ne_none _, Option.some_ne_none _⟩, Option.some_ne_none _, trivial⟩

/-- A program over tensors with two extents: a moved-from object is assigned to again; an array of the wrong length is refused. -/
example : let os : List (Op ℤ) := [.ofArray 0 [2, 2] [1, 2, 3, 4], .move 1 0, .assign 0 1, .assignArray 0 [5, 6, 7], .assignArray 0 [5, 6, 7, 8], .swap 0 1]
    LegalAll (.rank 2) .last 0 (fun _ => none) os ∧ CarefulAll true (.rank 2) .last 0 (fun _ => none) (fun _ => false) os ∧
    ((run true (.rank 2) .last (fun _ => none) os).map fun r => (r.1 0, r.1 1, r.2)) =
      .ok (some ⟨[2, 2], [2, 1], [1, 2, 3, 4]⟩, some ⟨[2, 2], [2, 1], [5, 6, 7, 8]⟩, [false, false, false, true, false, false]) := by
  refine ⟨⟨rfl, ⟨rfl, Option.some_ne_none _⟩, ⟨Option.some_ne_none _, Option.some_ne_none _⟩, Option.some_ne_none _, Option.some_ne_none _, ⟨Option.some_ne_none _, Option.some_ne_none _⟩, trivial⟩,
    ⟨trivial, rfl, ⟨rfl, fun _ _ h => ?_⟩, rfl, rfl, ⟨rfl, rfl⟩, trivial⟩, by rfl⟩
  cases h

end Ublas.Tens.Life
