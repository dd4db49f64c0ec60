import Verif.Lemmas.Tensor
import Verif.Model.TensorMul
import Mathlib.Algebra.BigOperators.Group.List.Basic
import Mathlib.Data.List.Nodup
/-! # Nested strided loops -/
namespace Ublas.Tens
variable {R σ : Type}

/-- Loops with plain counters, outermost first: (number of iterations, strides). -/
def nest : List (Nat × Ptrs) → (Ptrs → σ → M σ) → Ptrs → σ → M σ
  | [], leaf => leaf
  | (n, w) :: ls, leaf => sweep (nest ls leaf) w n

theorem nest_append (l1 l2 : List (Nat × Ptrs)) (leaf : Ptrs → σ → M σ) : nest (l1 ++ l2) leaf = nest l1 (nest l2 leaf) := by
  induction l1 with
  | nil => rfl
  | cons x l1 ih => rw [List.cons_append, nest, nest, ih]

/-- The multi-indices of a box in lexicographic order. -/
def boxList : List Nat → List (List Nat)
  | [] => [[]]
  | n :: e => (List.range n).flatMap fun k => (boxList e).map (k :: ·)

theorem mem_boxList {e i : List Nat} : i ∈ boxList e ↔ Valid e i := by
  induction e generalizing i with
  | nil => simp [boxList, Valid]
  | cons n e ih =>
    simp only [boxList, List.mem_flatMap, List.mem_range, List.mem_map, ih]
    constructor
    · rintro ⟨k, hk, j, hj, rfl⟩
      exact .cons hk hj
    · rintro (_ | ⟨h1, h2⟩)
      exact ⟨_, h1, _, h2, rfl⟩

theorem nodup_boxList (e : List Nat) : (boxList e).Nodup := by
  induction e with
  | nil => simp [boxList]
  | cons n e ih =>
    rw [boxList, List.nodup_flatMap]
    refine ⟨fun k _ => ih.map fun a b h => by simpa using h, List.nodup_range.imp_of_mem ?_⟩
    intro a b _ _ hab x hx hy
    simp only [List.mem_map] at hx hy
    obtain ⟨_, _, rfl⟩ := hx
    obtain ⟨_, _, h⟩ := hy
    simp at h; exact hab h.1.symm

theorem boxList_append (e e' : List Nat) : boxList (e ++ e') = (boxList e).flatMap fun y => (boxList e').map (y ++ ·) := by
  induction e with
  | nil => simp [boxList]
  | cons n e ih =>
    simp only [List.cons_append, boxList, ih, List.map_flatMap, List.flatMap_assoc, List.flatMap_map, List.map_map]
    rfl

/-- The pointers at multi-index `x`. -/
def addr : List (Nat × Ptrs) → Ptrs → List Nat → Ptrs
  | (_, w) :: ls, p, k :: x => addr ls ⟨p.c + k * w.c, p.a + k * w.a, p.b + k * w.b⟩ x
  | _, p, _ => p

theorem addr_c (ls : List (Nat × Ptrs)) (p : Ptrs) (x : List Nat) : (addr ls p x).c = p.c + dotW (ls.map fun l => l.2.c) x := by
  induction ls generalizing p x with
  | nil => cases x <;> simp [addr, dotW]
  | cons l ls ih =>
    cases x with
    | nil => simp [addr, dotW]
    | cons k x => rw [addr, ih]; simp [dotW]; ring

theorem addr_a (ls : List (Nat × Ptrs)) (p : Ptrs) (x : List Nat) : (addr ls p x).a = p.a + dotW (ls.map fun l => l.2.a) x := by
  induction ls generalizing p x with
  | nil => cases x <;> simp [addr, dotW]
  | cons l ls ih =>
    cases x with
    | nil => simp [addr, dotW]
    | cons k x => rw [addr, ih]; simp [dotW]; ring

theorem addr_b (ls : List (Nat × Ptrs)) (p : Ptrs) (x : List Nat) : (addr ls p x).b = p.b + dotW (ls.map fun l => l.2.b) x := by
  induction ls generalizing p x with
  | nil => cases x <;> simp [addr, dotW]
  | cons l ls ih =>
    cases x with
    | nil => simp [addr, dotW]
    | cons k x => rw [addr, ih]; simp [dotW]; ring

theorem addr_append {l1 l2 : List (Nat × Ptrs)} {p : Ptrs} {y z : List Nat} (h : y.length = l1.length) : addr (l1 ++ l2) p (y ++ z) = addr l2 (addr l1 p y) z := by
  induction l1 generalizing p y with
  | nil => rw [List.length_nil, List.length_eq_zero_iff] at h; subst h; cases l2 <;> simp [addr]
  | cons l l1 ih =>
    cases y with
    | nil => simp at h
    | cons k y => exact ih (by simpa using h)

theorem sweep_ok {body : Ptrs → σ → M σ} {w : Ptrs} {n : Nat} {p : Ptrs} {s : σ} (I : σ → Prop) (B : Nat → σ → σ) (hs : I s)
    (h : ∀ k s, k < n → I s → body ⟨p.c + k * w.c, p.a + k * w.a, p.b + k * w.b⟩ s = .ok (B k s) ∧ I (B k s)) :
    sweep body w n p s = .ok ((List.range n).foldl (fun s k => B k s) s) ∧ I ((List.range n).foldl (fun s k => B k s) s) := by
  induction n generalizing p s B with
  | zero => exact ⟨rfl, hs⟩
  | succ n ih =>
    obtain ⟨h0, h1⟩ := h 0 s (by omega) hs
    simp only [Nat.zero_mul, Nat.add_zero] at h0
    rw [List.range_succ_eq_map, List.foldl_cons, List.foldl_map, sweep, h0, bind_ok]
    refine ih (p := p.add w) (B := fun k => B (k + 1)) h1 fun k s hk hI => ?_
    have := h (k + 1) s (by omega) hI
    convert this using 4 <;> simp only [Ptrs.add] <;> ring

/-- The loops run the leaf once per multi-index, in lexicographic order. -/
theorem nest_ok {ls : List (Nat × Ptrs)} {leaf : Ptrs → σ → M σ} {p : Ptrs} {s : σ} (I : σ → Prop) (F : List Nat → σ → σ) (hs : I s)
    (h : ∀ x s, Valid (ls.map (·.1)) x → I s → leaf (addr ls p x) s = .ok (F x s) ∧ I (F x s)) :
    nest ls leaf p s = .ok ((boxList (ls.map (·.1))).foldl (fun s x => F x s) s) ∧ I ((boxList (ls.map (·.1))).foldl (fun s x => F x s) s) := by
  induction ls generalizing p s F with
  | nil => exact h [] s .nil hs
  | cons l ls ih =>
    obtain ⟨n, w⟩ := l
    rw [nest, List.map_cons, boxList, List.foldl_flatMap]
    simp only [List.foldl_map]
    refine sweep_ok I (fun k s => (boxList (ls.map (·.1))).foldl (fun s x => F (k :: x) s) s) hs fun k s hk hI => ?_
    exact ih (fun x => F (k :: x)) hI fun x s hx hI => h (k :: x) s (.cons hk hx) hI

/-! ## Folding updates of cells -/

theorem foldl_modify {X : Type} (A : X → Nat) (G : X → R → R) (xs : List X) (c : List R) (k : Nat) :
    (xs.foldl (fun c x => c.modify (A x) (G x)) c)[k]? = c[k]?.map fun v => (xs.filter fun x => A x = k).foldl (fun v x => G x v) v := by
  induction xs generalizing c with
  | nil => simp
  | cons x xs ih =>
    rw [List.foldl_cons, ih, List.getElem?_modify]
    by_cases h : A x = k
    · simp [h, Function.comp_def]
    · simp [h]

theorem foldl_modify_length {X : Type} (A : X → Nat) (G : X → R → R) (xs : List X) (c : List R) : (xs.foldl (fun c x => c.modify (A x) (G x)) c).length = c.length := by
  induction xs generalizing c with
  | nil => rfl
  | cons x xs ih => rw [List.foldl_cons, ih, List.length_modify]

theorem filter_append_box {e e' : List Nat} {A : List Nat → Nat} {A' : List Nat → Nat} (hA : ∀ y z, Valid e y → Valid e' z → A (y ++ z) = A' y)
    (hi : ∀ y y', Valid e y → Valid e y' → A' y = A' y' → y = y') {y : List Nat} (hy : Valid e y) :
    (boxList (e ++ e')).filter (fun x => A x = A' y) = (boxList e').map (y ++ ·) := by
  have key : ∀ l : List (List Nat), l.Nodup → (∀ x ∈ l, Valid e x) →
      (l.flatMap fun y => (boxList e').map (y ++ ·)).filter (fun x => A x = A' y) = if y ∈ l then (boxList e').map (y ++ ·) else [] := by
    intro l
    induction l with
    | nil => intro _ _; simp
    | cons x l ih =>
      intro hn hv
      rw [List.flatMap_cons, List.filter_append, ih (List.nodup_cons.1 hn).2 fun x hx => hv x (by simp [hx])]
      have hx := hv x (by simp)
      by_cases hxy : x = y
      · subst hxy
        have : (List.map (x ++ ·) (boxList e')).filter (fun t => A t = A' x) = List.map (x ++ ·) (boxList e') := by
          rw [List.filter_eq_self]
          intro t ht
          obtain ⟨z, hz, rfl⟩ := List.mem_map.1 ht
          simpa using hA x z hx (mem_boxList.1 hz)
        rw [this, if_neg (List.nodup_cons.1 hn).1, if_pos (by simp), List.append_nil]
      · have : (List.map (x ++ ·) (boxList e')).filter (fun t => A t = A' y) = [] := by
          rw [List.filter_eq_nil_iff]
          intro t ht
          obtain ⟨z, hz, rfl⟩ := List.mem_map.1 ht
          simp only [decide_eq_true_eq]
          rw [hA x z hx (mem_boxList.1 hz)]
          exact fun hc => hxy (hi x y hx hy hc)
        rw [this, List.nil_append]
        simp [Ne.symm hxy]
  rw [boxList_append, key _ (nodup_boxList e) fun x hx => mem_boxList.1 hx, if_pos (mem_boxList.2 hy)]

theorem filter_box_none {e : List Nat} {A : List Nat → Nat} {k : Nat} (h : ∀ x, Valid e x → A x ≠ k) : (boxList e).filter (fun x => A x = k) = [] := by
  rw [List.filter_eq_nil_iff]
  intro x hx
  simpa using h x (mem_boxList.1 hx)

theorem valid_append {e e' x : List Nat} (hx : Valid (e ++ e') x) : ∃ y z, x = y ++ z ∧ Valid e y ∧ Valid e' z := by
  have hx' := mem_boxList.2 hx
  rw [boxList_append] at hx'
  obtain ⟨y, hy, h2⟩ := List.mem_flatMap.1 hx'
  obtain ⟨z, hz, rfl⟩ := List.mem_map.1 h2
  exact ⟨y, z, rfl, mem_boxList.1 hy, mem_boxList.1 hz⟩

theorem dotW_zero {w : List Nat} (h : ∀ x ∈ w, x = 0) (i : List Nat) : dotW w i = 0 := by
  induction w generalizing i with
  | nil => cases i <;> rfl
  | cons x w ih =>
    cases i with
    | nil => rfl
    | cons k i => simp only [dotW]; rw [ih (fun x hx => h x (by simp [hx])), h x (by simp)]; simp

/-- Loops over free indices around loops over contracted ones that leave the target pointer where it is: every target cell is updated by the contributions of its own free index, in order. -/
theorem nest_contract {free contr : List (Nat × Ptrs)} {leaf : Ptrs → List R → M (List R)} {c : List R} (G : List Nat → R → R)
    (hz : ∀ l ∈ contr, l.2.c = 0) (hd : Distinct (free.map (·.1)) (free.map fun l => l.2.c))
    (hc : ∀ y, Valid (free.map (·.1)) y → dotW (free.map fun l => l.2.c) y < c.length)
    (h : ∀ y z (d : List R) v, Valid (free.map (·.1)) y → Valid (contr.map (·.1)) z → d.length = c.length → d[dotW (free.map fun l => l.2.c) y]? = some v →
      leaf (addr (free ++ contr) ⟨0, 0, 0⟩ (y ++ z)) d = .ok (d.set (dotW (free.map fun l => l.2.c) y) (G (y ++ z) v))) :
    ∃ c', nest (free ++ contr) leaf ⟨0, 0, 0⟩ c = .ok c' ∧ c'.length = c.length ∧
      (∀ y v, Valid (free.map (·.1)) y → c[dotW (free.map fun l => l.2.c) y]? = some v → c'[dotW (free.map fun l => l.2.c) y]? =
        some ((boxList (contr.map (·.1))).foldl (fun v z => G (y ++ z) v) v)) ∧
      ∀ k, (∀ y, Valid (free.map (·.1)) y → dotW (free.map fun l => l.2.c) y ≠ k) → c'[k]? = c[k]? := by
  have hlen : ∀ y, Valid (free.map (·.1)) y → y.length = free.length := fun y hy => by rw [hy.length, List.length_map]
  have hA : ∀ y z, Valid (free.map (·.1)) y → (addr (free ++ contr) ⟨0, 0, 0⟩ (y ++ z)).c = dotW (free.map fun l => l.2.c) y := fun y z hy => by
    rw [addr_append (hlen y hy), addr_c, addr_c, dotW_zero (w := contr.map fun l => l.2.c)]
    · simp
    · intro x hx
      obtain ⟨l, hl, rfl⟩ := List.mem_map.1 hx
      exact hz l hl
  have hset : ∀ (d : List R) (k : Nat) (v : R) (f : R → R), d[k]? = some v → d.set k (f v) = d.modify k f := fun d k v f hv => by
    apply List.ext_getElem?
    intro i
    rw [List.getElem?_modify, List.getElem?_set]
    by_cases hk : k = i
    · subst hk
      have : k < d.length := by rw [List.getElem?_eq_some_iff] at hv; exact hv.1
      rw [if_pos rfl, if_pos this, hv]; simp
    · simp [hk]
  obtain ⟨e1, e2⟩ := nest_ok (ls := free ++ contr) (leaf := leaf) (p := ⟨0, 0, 0⟩) (s := c) (fun d => d.length = c.length)
    (fun x d => d.modify (addr (free ++ contr) ⟨0, 0, 0⟩ x).c (G x)) rfl (by
    intro x d hx hd'
    rw [List.map_append] at hx
    obtain ⟨y, z, rfl, hy, hz⟩ := valid_append hx
    have hlt : dotW (free.map fun l => l.2.c) y < d.length := by rw [hd']; exact hc y hy
    refine ⟨?_, by rw [List.length_modify, hd']⟩
    rw [h y z d _ hy hz hd' (List.getElem?_eq_getElem hlt), hA y z hy]
    rw [hset _ _ _ _ (List.getElem?_eq_getElem hlt)])
  refine ⟨_, e1, e2, fun y v hy hv => ?_, fun k hk => ?_⟩
  · rw [foldl_modify (fun x => (addr (free ++ contr) ⟨0, 0, 0⟩ x).c) G, List.map_append,
      filter_append_box (A := fun x => (addr (free ++ contr) ⟨0, 0, 0⟩ x).c) (A' := dotW (free.map fun l : Nat × Ptrs => l.2.c)) (fun y z hy _ => hA y z hy) hd hy, hv]
    simp only [List.foldl_map, Option.map_some]
  · rw [foldl_modify (fun x => (addr (free ++ contr) ⟨0, 0, 0⟩ x).c) G, filter_box_none]
    · simp
    · intro x hx
      rw [List.map_append] at hx
      obtain ⟨y, z, rfl, hy, hz⟩ := valid_append hx
      rw [hA y z hy]; exact hk y hy

theorem foldl_add [AddCommMonoid R] {X : Type} (f : X → R) (l : List X) (v : R) : l.foldl (fun v x => v + f x) v = v + (l.map f).sum := by
  induction l generalizing v with
  | nil => simp
  | cons x l ih => rw [List.foldl_cons, ih, List.map_cons, List.sum_cons, add_assoc]

/-- Multiply-accumulate loops. -/
theorem mac_nest [NonUnitalNonAssocSemiring R] {free contr : List (Nat × Ptrs)} {a b c : List R} {old : List Nat → R} {fa fb : List Nat → List Nat → R}
    (hz : ∀ l ∈ contr, l.2.c = 0) (hd : Distinct (free.map (·.1)) (free.map fun l => l.2.c)) (hc : Lay c (free.map (·.1)) (free.map fun l => l.2.c) old)
    (ha : ∀ y z, Valid (free.map (·.1)) y → Valid (contr.map (·.1)) z → a[dotW (free.map fun l => l.2.a) y + dotW (contr.map fun l => l.2.a) z]? = some (fa y z))
    (hb : ∀ y z, Valid (free.map (·.1)) y → Valid (contr.map (·.1)) z → b[dotW (free.map fun l => l.2.b) y + dotW (contr.map fun l => l.2.b) z]? = some (fb y z)) :
    ∃ c', nest (free ++ contr) (mac a b) ⟨0, 0, 0⟩ c = .ok c' ∧ c'.length = c.length ∧
      Lay c' (free.map (·.1)) (free.map fun l => l.2.c) (fun y => old y + ((boxList (contr.map (·.1))).map fun z => fa y z * fb y z).sum) ∧
      ∀ k, (∀ y, Valid (free.map (·.1)) y → dotW (free.map fun l => l.2.c) y ≠ k) → c'[k]? = c[k]? := by
  obtain ⟨c', e1, e2, e3, e4⟩ := nest_contract (free := free) (contr := contr) (leaf := mac a b) (c := c) (fun x v => v + fa (x.take free.length) (x.drop free.length) * fb (x.take free.length) (x.drop free.length))
    hz hd (fun y hy => (List.getElem?_eq_some_iff.1 (hc y hy)).1) (by
      intro y z d v hy hz' hlen hv
      have hyl : y.length = free.length := by rw [hy.length, List.length_map]
      have h1 : (addr (free ++ contr) ⟨0, 0, 0⟩ (y ++ z)).c = dotW (free.map fun l => l.2.c) y := by
        rw [addr_append hyl, addr_c, addr_c, dotW_zero (w := contr.map fun l => l.2.c)]
        · simp
        · intro x hx
          obtain ⟨l, hl, rfl⟩ := List.mem_map.1 hx
          exact hz l hl
      have h2 : (addr (free ++ contr) ⟨0, 0, 0⟩ (y ++ z)).a = dotW (free.map fun l => l.2.a) y + dotW (contr.map fun l => l.2.a) z := by
        rw [addr_append hyl, addr_a, addr_a]; simp
      have h3 : (addr (free ++ contr) ⟨0, 0, 0⟩ (y ++ z)).b = dotW (free.map fun l => l.2.b) y + dotW (contr.map fun l => l.2.b) z := by
        rw [addr_append hyl, addr_b, addr_b]; simp
      rw [mac, h1, h2, h3, rd_eq_ok.2 (ha y z hy hz'), rd_eq_ok.2 (hb y z hy hz'), rd_eq_ok.2 hv]
      simp only [bind_ok]
      rw [wr_ok (List.getElem?_eq_some_iff.1 hv).1, ← hyl]; simp)
  refine ⟨c', e1, e2, fun y hy => ?_, e4⟩
  rw [e3 y _ hy (hc y hy)]
  have hyl : y.length = free.length := by rw [hy.length, List.length_map]
  simp only [← hyl, List.take_left, List.drop_left]
  congr 1
  exact foldl_add (fun z => fa y z * fb y z) _ _

/-! ## Sums -/

theorem sum_flatMap [AddCommMonoid R] {X : Type} (l : List X) (g : X → List R) : (l.flatMap g).sum = (l.map fun x => (g x).sum).sum := by
  induction l with
  | nil => rfl
  | cons x l ih => rw [List.flatMap_cons, List.sum_append, ih, List.map_cons, List.sum_cons]

theorem boxList_sum [AddCommMonoid R] (e : List Nat) (f : List Nat → R) : ((boxList e).map f).sum = sumBox e f := by
  induction e generalizing f with
  | nil => simp [boxList, sumBox]
  | cons n e ih =>
    rw [boxList, sumBox, List.map_flatMap, sum_flatMap]
    simp only [List.map_map]
    have : ∀ n, ((List.range n).map fun k => ((boxList e).map (f ∘ (k :: ·))).sum).sum = ∑ k ∈ Finset.range n, sumBox e fun i => f (k :: i) := by
      intro n
      induction n with
      | zero => simp
      | succ n ihn => rw [List.range_succ, List.map_append, List.sum_append, ihn, Finset.sum_range_succ]; simp [ih, Function.comp_def]
    exact this n

theorem sumBox_congr [AddCommMonoid R] {e : List Nat} {f g : List Nat → R} (h : ∀ i, Valid e i → f i = g i) : sumBox e f = sumBox e g := by
  rw [← boxList_sum, ← boxList_sum]
  congr 1
  exact List.map_congr_left fun i hi => h i (mem_boxList.1 hi)

/-! ## dotW -/

theorem dotW_append {w w' i i' : List Nat} (h : i.length = w.length) : dotW (w ++ w') (i ++ i') = dotW w i + dotW w' i' := by
  induction w generalizing i with
  | nil => rw [List.length_nil, List.length_eq_zero_iff] at h; subst h; simp [dotW]
  | cons x w ih =>
    cases i with
    | nil => simp at h
    | cons k i => simp only [List.cons_append, dotW]; rw [ih (by simpa using h)]; ring

theorem dotW_reverse {w i : List Nat} (h : i.length = w.length) : dotW w.reverse i.reverse = dotW w i := by
  induction w generalizing i with
  | nil => rw [List.length_nil, List.length_eq_zero_iff] at h; subst h; rfl
  | cons x w ih =>
    cases i with
    | nil => simp at h
    | cons k i =>
      have h' : i.length = w.length := by simpa using h
      rw [List.reverse_cons, List.reverse_cons, dotW_append (by simp [h']), ih h']
      simp only [dotW]; omega

theorem dotW_nil_right (w : List Nat) : dotW w [] = 0 := by cases w <;> rfl

theorem Valid.reverse {e i : List Nat} (h : Valid e i) : Valid e.reverse i.reverse := List.rel_reverse h

theorem Valid.of_reverse {e i : List Nat} (h : Valid e.reverse i) : Valid e i.reverse := by
  have := List.rel_reverse h
  rwa [List.reverse_reverse] at this

theorem sweep32_eq {body : Ptrs → σ → M σ} {w : Ptrs} {n : Nat} (h : n < 2 ^ 32) : sweep32 body w n = sweep body w n := by
  funext p s; rw [sweep32, if_pos h]

end Ublas.Tens
