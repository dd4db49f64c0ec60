import Verif.Model.TensorCompare
import Verif.Props.Tensor
/-! # C128: comparing tensor expressions with each other and with a scalar -/
namespace Ublas.Tens
variable {R : Type}

/-- The relation an operator stands for. -/
def Cmp.Rel [LinearOrder R] : Cmp → R → R → Prop
  | .eq, a, b => a = b
  | .ne, a, b => a ≠ b
  | .lt, a, b => a < b
  | .le, a, b => a ≤ b
  | .gt, a, b => a > b
  | .ge, a, b => a ≥ b

theorem Cmp.pred_iff [LinearOrder R] (c : Cmp) (a b : R) : c.pred a b = true ↔ c.Rel a b := by
  cases c <;> simp [Cmp.pred, Cmp.Rel]

theorem holdsFrom_ok {p : R → Bool} {a : List R} {n i : Nat} (ha : i + n ≤ a.length) :
    ∃ r, holdsFrom p a n i = .ok r ∧ (r = true ↔ ∀ k x, i ≤ k → k < i + n → a[k]? = some x → p x = true) := by
  induction n generalizing i with
  | zero => exact ⟨true, rfl, by simp; omega⟩
  | succ n ih =>
    have h1 : a[i]? = some a[i] := List.getElem?_eq_getElem (by omega)
    rw [holdsFrom, vectorAt_ok.2 h1, bind_ok]
    by_cases hp : p a[i] = true
    · rw [if_pos hp]
      obtain ⟨r, e, h⟩ := ih (i := i + 1) (by omega)
      refine ⟨r, e, h.trans ⟨fun h k x hk hk' hx => ?_, fun h k x hk hk' hx => h k x (by omega) (by omega) hx⟩⟩
      by_cases hki : k = i
      · subst hki; rw [h1] at hx; cases hx; exact hp
      · exact h k x (by omega) (by omega) hx
    · rw [if_neg hp]
      refine ⟨false, rfl, by simp only [Bool.false_eq_true, false_iff]; exact fun h => hp (h i _ le_rfl (by omega) h1)⟩

theorem compareAll_holds {L : Layout} {t : Tensor R} {e : List Nat} {f : List Nat → R} (ht : Holds L t e f) (hs : count e < 2 ^ 32) (p : R → Bool) :
    ∃ r, compareAll p t = .ok r ∧ (r = true ↔ ∀ i, Valid e i → p (f i) = true) := by
  have hlen : min t.data.length (2 ^ 32) = count e := by rw [ht.size]; omega
  obtain ⟨r, e1, hr⟩ := holdsFrom_ok (p := p) (a := t.data) (n := min t.data.length (2 ^ 32)) (i := 0) (by omega)
  refine ⟨r, by rw [compareAll, e1, bind_ok, if_neg (by rw [ht.size]; omega)], hr.trans ⟨fun h i hi => ?_, fun h k x _ hk hx => ?_⟩⟩
  · exact h (pos L e i) _ (by omega) (by rw [hlen, Nat.zero_add]; exact pos_lt hi) (ht.elem i hi)
  · rw [hlen, Nat.zero_add] at hk
    obtain ⟨i, hi, rfl⟩ := pos_surj (L := L) hk
    have e1 := ht.elem i hi
    rw [hx] at e1
    cases e1
    exact h i hi

/-- An operand that means `f` on extents `e`, with everything its evaluation needs: the extents it reports are `e`, positive and not none. -/
structure TExp.Operand (L : Layout) (zero : R) (e : List Nat) (x : TExp R) (f : List Nat → R) : Prop where
  means : x.Means L e (fun _ => zero) f
  extents : x.extents [] = e
  positive : ∀ n ∈ e, 0 < n
  rank : e ≠ []
  small : count e < 2 ^ 32

theorem TExp.Operand.asTensor {L : Layout} {zero : R} {e : List Nat} {x : TExp R} {f : List Nat → R} (h : x.Operand L zero e f)
    {order : List Nat} (ho : order.Perm (List.range (count e))) : ∃ t, x.asTensor zero order = .ok t ∧ Holds L t e f := by
  have hc := C72_construct_same_layout_partial zero h.means h.positive h.rank h.extents h.small ho
  have hl := h.means.layout
  cases x with
  | leaf L' t =>
    cases h.means with
    | leaf hh => exact ⟨t, rfl, hh⟩
  | self L' => exact absurd h.extents.symm h.rank
  | unary op y => simpa only [TExp.asTensor, hl] using hc
  | binary op y z => simpa only [TExp.asTensor, hl] using hc
  | vec op left get y => simpa only [TExp.asTensor, hl] using hc

/-- **C128**, a tensor expression with a scalar: `s op x` and `x op s` are true exactly when the relation holds at every multi-index, for each of the six operators. -/
theorem C128_scalar [LinearOrder R] {L : Layout} {zero : R} {e : List Nat} {x : TExp R} {f : List Nat → R} (h : x.Operand L zero e f) (c : Cmp) (s : R)
    {order : List Nat} (ho : order.Perm (List.range (count e))) :
    (∃ r, compareScalarLeft c zero s x order = .ok r ∧ (r = true ↔ ∀ i, Valid e i → c.Rel s (f i))) ∧
    ∃ r, compareScalarRight c zero s x order = .ok r ∧ (r = true ↔ ∀ i, Valid e i → c.Rel (f i) s) := by
  obtain ⟨t, h1, h2⟩ := h.asTensor ho
  obtain ⟨r, r1, r2⟩ := compareAll_holds h2 h.small (fun y => c.pred s y)
  obtain ⟨r', q1, q2⟩ := compareAll_holds h2 h.small (fun y => c.pred y s)
  exact ⟨⟨r, by simp only [compareScalarLeft, h1, bind_ok, r1], by simpa only [Cmp.pred_iff] using r2⟩,
    ⟨r', by simp only [compareScalarRight, h1, bind_ok, q1], by simpa only [Cmp.pred_iff] using q2⟩⟩

/-- **C128**, two tensor expressions of one layout: operands of the same extents are compared at every multi-index; operands of different extents are not equal, and the order
comparisons of them throw. -/
theorem C128_expressions_partial [LinearOrder R] {L : Layout} {zero : R} {e e' : List Nat} {x y : TExp R} {f g : List Nat → R} (hx : x.Operand L zero e f) (hy : y.Operand L zero e' g)
    {order order' : List Nat} (ho : order.Perm (List.range (count e))) (ho' : order'.Perm (List.range (count e'))) :
    (e = e' → ∀ c, ∃ r, compareExp c zero x y order order' = .ok r ∧ (r = true ↔ ∀ i, Valid e i → c.Rel (f i) (g i))) ∧
    (e ≠ e' → compareExp .eq zero x y order order' = .ok false ∧ ∀ c, c ≠ .eq → c ≠ .ne → compareExp c zero x y order order' = .error .stdException) := by
  obtain ⟨a, a1, a2⟩ := hx.asTensor ho
  obtain ⟨b, b1, b2⟩ := hy.asTensor ho'
  refine ⟨?_, fun h => ?_⟩
  · rintro rfl c
    obtain ⟨r, r1, r2⟩ := compare_same c a2 b2 hx.small
    exact ⟨r, by simp only [compareExp, a1, b1, bind_ok, r1], by simpa only [Cmp.pred_iff] using r2⟩
  · have hn : a.extents ≠ b.extents := by rw [a2.extents, b2.extents]; exact h
    refine ⟨?_, fun c h1 h2 => ?_⟩
    · simp [compareExp, a1, b1, bind_ok, compare, hn]
    · simp [compareExp, a1, b1, bind_ok, compare, hn, h1, h2]

/-- An operand whose own parts disagree about the extents is refused before anything is compared. -/
theorem C128_shapes [LinearOrder R] {L : Layout} {zero : R} {e : List Nat} {x : TExp R} (hx : x.Mismatch L e) (hc : x.isTensor = false) (hl : x.layout = L) (hq : x.extents [] = e) (hp : ∀ n ∈ e, 0 < n)
    (hr : e ≠ []) (c : Cmp) (s : R) (order : List Nat) :
    compareScalarLeft c zero s x order = .error .stdException ∧ compareScalarRight c zero s x order = .error .stdException := by
  obtain ⟨t, t1, t2⟩ := create_holds L hp hr zero
  have : x.asTensor zero order = .error .stdException := by
    have key : construct L zero x order = .error .stdException := by
      simp only [construct, hq, t1, bind_ok]
      exact C72_shapes (by rw [t2.extents]; exact hx) _ _
    cases x with
    | leaf _ _ => simp [TExp.isTensor] at hc
    | self _ => simp [TExp.isTensor] at hc
    | unary _ _ => simpa only [TExp.asTensor, hl] using key
    | binary _ _ _ => simpa only [TExp.asTensor, hl] using key
    | vec _ _ _ _ => simpa only [TExp.asTensor, hl] using key
  exact ⟨by simp only [compareScalarLeft, this, bind_error], by simp only [compareScalarRight, this, bind_error]⟩

example : compareScalarRight .lt 0 0 (.binary (fun a b : Int => a + b) (.leaf .first ⟨[2, 2], [1, 2], [1, 2, 3, 4]⟩) (.leaf .first ⟨[1, 4], [1, 1], [1, 2, 3, 4]⟩)) [3, 1, 0, 2] = .error .stdException ∧
    (TExp.binary (fun a b : Int => a + b) (.leaf .first ⟨[2, 2], [1, 2], [1, 2, 3, 4]⟩) (.leaf .first ⟨[1, 4], [1, 1], [1, 2, 3, 4]⟩)).Mismatch .first [2, 2] :=
  ⟨by decide, .right _ rfl rfl (.leaf (by decide))⟩

/-- **C128** refuted for `!=`: a tensor expression with one element equal to the scalar and one different from it is neither equal nor unequal to the scalar; and two expressions
that agree at one multi-index and differ at another are neither equal nor unequal. -/
theorem C128_ne_refuted [LinearOrder R] {L : Layout} {zero : R} {e : List Nat} {x y : TExp R} {f g : List Nat → R} (hx : x.Operand L zero e f) (hy : y.Operand L zero e g) (s : R)
    {order order' : List Nat} (ho : order.Perm (List.range (count e))) (ho' : order'.Perm (List.range (count e))) (i j : List Nat) (hi : Valid e i) (hj : Valid e j) :
    (f i = s → f j ≠ s → compareScalarRight .eq zero s x order = .ok false ∧ compareScalarRight .ne zero s x order = .ok false) ∧
    (f i = g i → f j ≠ g j → compareExp .eq zero x y order order' = .ok false ∧ compareExp .ne zero x y order order' = .ok false) := by
  have fin : ∀ {m : M Bool} {P : Prop}, (∃ r, m = .ok r ∧ (r = true ↔ P)) → ¬ P → m = .ok false := by
    rintro m P ⟨r, h1, h2⟩ hP
    cases r with
    | false => exact h1
    | true => exact absurd (h2.1 rfl) hP
  refine ⟨fun h1 h2 => ⟨fin (C128_scalar hx .eq s ho).2 fun h => h2 (h j hj), fin (C128_scalar hx .ne s ho).2 fun h => h i hi h1⟩,
    fun h1 h2 => ⟨fin ((C128_expressions_partial hx hy ho ho').1 rfl .eq) fun h => h2 (h j hj), fin ((C128_expressions_partial hx hy ho ho').1 rfl .ne) fun h => h i hi h1⟩⟩

/-- With 2^32 or more elements a comparison with a scalar that holds for the first 2^32 never ends: the counter is an unsigned int. -/
theorem C128_large_refuted (p : R → Bool) (hp : ∀ x, p x = true) (t : Tensor R) (h : 2 ^ 32 ≤ t.data.length) : compareAll p t = .error .diverge := by
  obtain ⟨r, e1, hr⟩ := holdsFrom_ok (p := p) (a := t.data) (n := min t.data.length (2 ^ 32)) (i := 0) (by omega)
  have : r = true := hr.2 fun _ x _ _ _ => hp x
  subst this
  rw [compareAll, e1, bind_ok, if_pos ⟨rfl, h⟩]

/-- A [2, 2] tensor and the expression `- t`: compared with 0. -/
example : compareScalarRight .lt 0 0 (.unary (fun z : Int => -z) (.leaf .first ⟨[2, 2], [1, 2], [1, 2, 3, 4]⟩)) [3, 1, 0, 2] = .ok true ∧
    compareScalarLeft .lt 0 (-4) (.unary (fun z : Int => -z) (.leaf .first ⟨[2, 2], [1, 2], [1, 2, 3, 4]⟩)) [0, 1, 2, 3] = .ok false := ⟨by decide, by decide⟩
example : (TExp.unary (fun z : Int => -z) (.leaf .first ⟨[2, 1], [1, 1], [1, 2]⟩)).Operand .first 0 [2, 1] (fun i => -(1 + (i.getD 0 0 : Int))) := by
  refine ⟨.unary _ (.leaf (f := fun i => 1 + (i.getD 0 0 : Int)) ⟨rfl, by decide, by decide, by decide, rfl, fun i hi => ?_⟩), rfl, by decide, by decide, by decide⟩
  rcases hi with _ | ⟨h1, _ | ⟨h2, ⟨⟩⟩⟩
  rename_i a b
  have ha : a = 0 ∨ a = 1 := by omega
  have hb : b = 0 := by omega
  subst hb
  rcases ha with rfl | rfl <;> rfl

end Ublas.Tens
