import Verif.Model.TensorMap
import Verif.Props.Tensor
/-! # C95: real, imag and conj of tensor expressions -/
namespace Ublas.Tens
variable {R S : Type}

/-- **C95**.  real / imag of a complex expression and conj of a real one evaluate the expression and return a tensor of the other element type with the
same extents and layout, whose element at every multi-index is the function of the expression's element there (operands of one layout, fewer than 2^32 elements,
see C72); the evaluation order of the expression does not matter. -/
theorem C95_new_tensor_partial {L : Layout} {e : List Nat} {f : List Nat → R} {x : TExp R} (zero : R) (zero' : S) (fn : R → S)
    (hx : x.Means L e (fun _ => zero) f) (hp : ∀ n ∈ e, 0 < n) (hr : e ≠ []) (hq : x.extents [] = e) (hs : count e < 2 ^ 32)
    {order : List Nat} (ho : order.Perm (List.range (count e))) :
    ∃ t, mapTensor L zero zero' fn x order = .ok t ∧ Holds L t e fun i => fn (f i) := by
  obtain ⟨a, ha, hA⟩ := C72_construct_same_layout_partial zero hx hp hr hq hs ho
  obtain ⟨c, hc, hC⟩ := create_holds L hp hr zero'
  obtain ⟨d, hd, h1, h2⟩ := loop_inv (n := a.data.length) (s := c.data)
    (f := fun k d => (do let v ← rd false a.data k; wr false d k (fn v) : M (List S)))
    (fun k d => d.length = c.data.length ∧ ∀ j, j < k → d[j]? = (a.data[j]?).map fn) ⟨rfl, fun j hj => absurd hj (Nat.not_lt_zero _)⟩ (by
      intro k d hk hi
      have hkd : k < d.length := by rw [hi.1, hC.size, ← hA.size]; exact hk
      refine ⟨d.set k (fn a.data[k]), by rw [rd_ok hk, bind_ok, wr_ok hkd], by rw [List.length_set]; exact hi.1, ?_⟩
      intro j hj
      by_cases hjk : j = k
      · subst hjk; simp [hkd, hk]
      · rw [List.getElem?_set_ne (Ne.symm hjk)]; exact hi.2 j (by omega))
  refine ⟨{ c with data := d }, ?_, hC.extents, hp, hr, hC.strides, by rw [h1, hC.size], ?_⟩
  · unfold mapTensor
    rw [hq, if_neg hr, ha, bind_ok, hA.extents, hc, bind_ok, hd, bind_ok]
  · intro i hi
    have hv := hA.elem i hi
    show d[pos L e i]? = _
    rw [h2 _ (by rw [hA.size]; exact pos_lt hi), hv]; rfl

/-- **C95**: the empty tensor is refused. -/
theorem C95_empty (L : Layout) (zero : R) (zero' : S) (fn : R → S) {x : TExp R} (order : List Nat) (h : x.extents [] = []) :
    mapTensor L zero zero' fn x order = .error .stdException := by
  unfold mapTensor; rw [if_pos h]

/-- **C95**: the overloads that stay within the element type form an expression that, when a tensor is built from it, gives the function of each element. -/
theorem C95_expression_partial {L : Layout} {e : List Nat} {f : List Nat → R} {x : TExp R} (zero : R) (fn : R → R)
    (hx : x.Means L e (fun _ => zero) f) (hp : ∀ n ∈ e, 0 < n) (hr : e ≠ []) (hq : x.extents [] = e) (hs : count e < 2 ^ 32)
    {order : List Nat} (ho : order.Perm (List.range (count e))) :
    ∃ t, construct L zero (mapExpr fn x) order = .ok t ∧ Holds L t e fun i => fn (f i) :=
  C72_construct_same_layout_partial zero (.unary fn hx) hp hr hq hs ho

/-- **C95** refuted for 2^32 or more elements: real / imag / conj of *every* non-empty expression of that many elements — in particular of a 65536 x 65536 tensor of zeros, a legal expression
each of whose elements is defined — never return: the `unsigned int` loop counter wraps around before it reaches the size. -/
theorem C95_large_refuted (L : Layout) (zero : R) (zero' : S) (fn : R → S) :
    (∀ (e : List Nat) (f : List Nat → R) (x : TExp R), x.Means L e (fun _ => zero) f → (∀ n ∈ e, 0 < n) → e ≠ [] → x.extents [] = e → 2 ^ 32 ≤ count e → ∀ order, mapTensor L zero zero' fn x order = .error .diverge) ∧
    ∃ x : TExp R, x.Means L [65536, 65536] (fun _ => zero) (fun _ => zero) ∧ x.extents [] = [65536, 65536] ∧ ∀ order, mapTensor L zero zero' fn x order = .error .diverge := by
  have main : ∀ (e : List Nat) (f : List Nat → R) (x : TExp R), x.Means L e (fun _ => zero) f → (∀ n ∈ e, 0 < n) → e ≠ [] → x.extents [] = e → 2 ^ 32 ≤ count e → ∀ order, mapTensor L zero zero' fn x order = .error .diverge := by
    intro e f x hx hp hr hq hs order
    obtain ⟨t, h1, h2⟩ := create_holds L hp hr zero
    unfold mapTensor
    rw [hq, if_neg hr]
    simp only [construct, hq, h1, bind_ok]
    rw [C72_large_refuted (fun _ y => y) (by rw [h2.size]; exact hs) (by rw [h2.extents]; exact hx.allEqual)]
    rfl
  obtain ⟨t, h1, h2⟩ := create_holds L (e := [65536, 65536]) (by simp) (by simp) zero
  have hm : (TExp.leaf L t).Means L [65536, 65536] (fun _ => zero) (fun _ => zero) := .leaf h2
  exact ⟨main, .leaf L t, hm, h2.extents, main _ _ _ hm (by simp) (by simp) h2.extents (by simp [count])⟩

/-- A 2 x 2 tensor of pairs (real part, imaginary part): the imaginary parts of its double. -/
example : (do let t ← createFrom .first [2, 2] [((1, 2) : Int × Int), (3, 4), (5, 6), (7, 8)]
              mapTensor .first (0, 0) (0 : Int) Prod.snd (.binary (fun a b => (a.1 + b.1, a.2 + b.2)) (.leaf .first t) (.leaf .first t)) [3, 1, 0, 2] : M (Tensor Int)) =
    .ok ⟨[2, 2], [1, 2], [4, 8, 12, 16]⟩ := by decide

end Ublas.Tens
