import Verif.Model.Duff
import Mathlib.Algebra.Ring.Int.Defs
/-! # C103: builds with Duff's device -/
namespace Ublas
variable {σ R : Type}

theorem bind_assoc' {α β γ : Type} (m : M α) (f : α → M β) (g : β → M γ) : (m >>= f) >>= g = m >>= fun a => f a >>= g := by cases m <;> rfl

theorem times_add (body : σ → M σ) (a b : Nat) (s : σ) : times body (a + b) s = times body a s >>= times body b := by
  induction a generalizing s with
  | zero => simp only [Nat.zero_add, times, bind_ok]
  | succ a ih =>
    rw [show a + 1 + b = (a + b) + 1 from by omega, times, times, bind_assoc']
    congr 1; funext s'; exact ih s'

theorem duffRounds_eq (d : Nat) (body : σ → M σ) (r : Nat) (s : σ) : duffRounds d body r s = times body (r * d) s := by
  induction r generalizing s with
  | zero => simp only [Nat.zero_mul, times, duffRounds]
  | succ r ih =>
    rw [duffRounds, show (r + 1) * d = d + r * d from by rw [Nat.add_mul, Nat.one_mul, Nat.add_comm], times_add]
    congr 1; funext s'; exact ih s'

/-- What `DD` does for every `n`: the number of executions of the body. -/
theorem duff_times (W n d : Nat) (body : σ → M σ) (s : σ) :
    duff W n d body s = times body ((if n % d = 0 then d else n % d) + ((((n + d - 1) / d) % W + W - 1) % W) * d) s := by
  simp only [duff, times_add]
  congr 1; funext s'; exact duffRounds_eq _ _ _ _

theorem duff_wrap (W q : Nat) (h : 0 < q) (hq : q ≤ W) : (q % W + W - 1) % W = q - 1 := by
  rcases Nat.lt_or_eq_of_le hq with h' | h'
  · rw [Nat.mod_eq_of_lt h', show q + W - 1 = (q - 1) + W from by omega, Nat.add_mod_right, Nat.mod_eq_of_lt (by omega)]
  · subst h'; rw [Nat.mod_self, Nat.zero_add, Nat.mod_eq_of_lt (by omega)]

/-- For a positive count whose number of rounds fits the counter, `DD` runs the body exactly `n` times. -/
theorem duff_pos (W n d : Nat) (hd : 0 < d) (hn : 0 < n) (hr : n ≤ d * W) (body : σ → M σ) (s : σ) : duff W n d body s = times body n s := by
  rw [duff_times]
  congr 1
  have hdm := Nat.div_add_mod n d
  have hlt := Nat.mod_lt n hd
  by_cases h0 : n % d = 0
  · have hq : (n + d - 1) / d = n / d := by
      rw [show n + d - 1 = (d - 1) + d * (n / d) from by omega, Nat.add_mul_div_left _ _ hd, Nat.div_eq_of_lt (by omega), Nat.zero_add]
    have hpos : 0 < n / d := Nat.div_pos (Nat.le_of_not_lt fun h => by rw [Nat.mod_eq_of_lt h] at h0; omega) hd
    have hle : n / d ≤ W := by
      have := Nat.div_le_div_right (c := d) hr
      rwa [Nat.mul_div_cancel_left _ hd] at this
    rw [if_pos h0, hq, duff_wrap W _ hpos hle, Nat.sub_mul, Nat.one_mul, Nat.mul_comm (n / d) d]
    have : d ≤ d * (n / d) := Nat.le_mul_of_pos_right d hpos
    omega
  · have hq : (n + d - 1) / d = n / d + 1 := by
      rw [show n + d - 1 = (n % d - 1) + d * (n / d + 1) from by rw [Nat.mul_add]; omega, Nat.add_mul_div_left _ _ hd, Nat.div_eq_of_lt (by omega), Nat.zero_add]
    have hle : n / d < W := by
      apply Nat.lt_of_mul_lt_mul_left (a := d)
      omega
    rw [if_neg h0, hq, duff_wrap W (n / d + 1) (Nat.succ_pos _) hle, Nat.add_sub_cancel, Nat.mul_comm (n / d) d]
    omega

/-- For a count of zero `DD` runs the body d·W times. -/
theorem duff_zero (W d : Nat) (hW : 0 < W) (hd : 0 < d) (body : σ → M σ) (s : σ) : duff W 0 d body s = times body (d * W) s := by
  rw [duff_times]
  congr 1
  rw [if_pos (Nat.zero_mod d), Nat.zero_add, Nat.div_eq_of_lt (by omega), Nat.zero_mod, Nat.zero_add, Nat.mod_eq_of_lt (by omega), Nat.sub_mul, Nat.one_mul, Nat.mul_comm W d]
  have : d ≤ d * W := Nat.le_mul_of_pos_right d hW
  omega

theorem times_loop (f : Nat → σ → M σ) : ∀ (n k : Nat) (s : σ),
    (times (fun p : σ × Nat => do
      let s ← f p.2 p.1
      .ok (s, p.2 + 1)) n (s, k)) = (loop (fun i => f (k + i)) n s >>= fun s' => .ok (s', k + n)) := by
  intro n
  induction n with
  | zero => intro k s; rfl
  | succ n ih =>
    intro k s
    rw [times_add _ n 1, ih, loop, bind_assoc', bind_assoc']
    congr 1; funext s'
    simp only [times, bind_ok, bind_assoc']
    congr 1

theorem duffLoop_pos (W n d : Nat) (hd : 0 < d) (hn : 0 < n) (hr : n ≤ d * W) (f : Nat → σ → M σ) (s : σ) : duffLoop W n d f s = loop f n s := by
  rw [duffLoop, duff_pos W n d hd hn hr, times_loop, bind_assoc']
  simp only [bind_ok, Nat.zero_add]
  cases loop f n s <;> rfl

/-- Running over a list. -/
def listLoop {β : Type} (f : β → σ → M σ) : List β → σ → M σ
  | [], s => .ok s
  | x :: l, s => f x s >>= listLoop f l

/-- The body of `duffIter`. -/
def iterStep {β : Type} (f : β → σ → M σ) (p : σ × List β) : M (σ × List β) :=
  match p.2 with
  | [] => .error .ub
  | x :: l => do
    let s ← f x p.1
    .ok (s, l)

theorem duffIter_eq {β : Type} (W n d : Nat) (f : β → σ → M σ) (l : List β) (s : σ) : duffIter W n d f l s = (duff W n d (iterStep f) (s, l) >>= fun p => .ok p.1) := rfl

theorem times_list {β : Type} (f : β → σ → M σ) : ∀ (l : List β) (n : Nat) (s : σ), n ≤ l.length →
    times (iterStep f) n (s, l) = (listLoop f (l.take n) s >>= fun s' => .ok (s', l.drop n)) := by
  intro l
  induction l with
  | nil => intro n s h; have : n = 0 := by simpa using h
           subst this; rfl
  | cons x l ih =>
    intro n s h
    cases n with
    | zero => rfl
    | succ n =>
      rw [times, show iterStep f (s, x :: l) = (f x s >>= fun s' => .ok (s', l)) from rfl]
      simp only [List.take_succ_cons, listLoop, bind_assoc', bind_ok, List.drop_succ_cons]
      congr 1; funext s'
      exact ih n s' (by simpa using h)

theorem listLoop_map {β γ : Type} (g : γ → β) (f : β → σ → M σ) (l : List γ) (s : σ) : listLoop f (l.map g) s = listLoop (fun x => f (g x)) l s := by
  induction l generalizing s with
  | nil => rfl
  | cons x l ih =>
    simp only [List.map_cons, listLoop]
    congr 1; funext s'; exact ih s'

theorem duffIter_pos {β : Type} (W n d : Nat) (hd : 0 < d) (hn : 0 < n) (hr : n ≤ d * W) (f : β → σ → M σ) (l : List β) (hl : n ≤ l.length) (s : σ) :
    duffIter W n d f l s = listLoop f (l.take n) s := by
  rw [duffIter_eq, duff_pos W n d hd hn hr, times_list f l n s hl, bind_assoc']
  simp only [bind_ok]
  cases listLoop f (l.take n) s <;> rfl

theorem scalarLoop_list (T : VT σ R) (F : R → R) (l : List Nat) (s : σ) : listLoop (fun i s => do
    let x ← T.get s i
    T.put s i (F x)) l s = VAssign.scalarLoop T F l s := by
  induction l generalizing s with
  | nil => rfl
  | cons i l ih =>
    simp only [listLoop, VAssign.scalarLoop, bind_assoc']
    congr 1; funext x; congr 1; funext s'; exact ih s'

theorem take_zip' {α β : Type} : ∀ (n : Nat) (l : List α) (r : List β), (l.zip r).take n = (l.take n).zip (r.take n)
  | 0, l, r => by simp
  | n + 1, [], r => by simp
  | n + 1, x :: l, [] => by simp
  | n + 1, x :: l, y :: r => by simp [take_zip' n l r]

theorem zipLoop_list [Add R] [Sub R] [Zero R] (T : VT σ R) (F : AssignF) (l : List Nat) (r : List (Nat × (σ → M R))) (s : σ) :
    listLoop (fun (q : Nat × Nat × (σ → M R)) s => VAssign.applyAt T F s q.1 q.2.2) (l.zip r) s = VAssign.zipLoop T F l r s := by
  induction l generalizing r s with
  | nil => cases r <;> rfl
  | cons i l ih =>
    cases r with
    | nil => rfl
    | cons q r =>
      simp only [List.zip_cons_cons, listLoop, VAssign.zipLoop]
      congr 1; funext s'; exact ih r s'

theorem dotLoop_list [Semiring R] : ∀ (n : Nat) (l1 l2 : List (Nat × R)) (t : R), n ≤ l1.length → n ≤ l2.length →
    listLoop (fun (q : (Nat × R) × Nat × R) t => (.ok (t + q.1.2 * q.2.2) : M R)) ((l1.zip l2).take n) t = ProdFn.dotLoop n l1 l2 t := by
  intro n
  induction n with
  | zero => intro l1 l2 t _ _; simp [listLoop, ProdFn.dotLoop]
  | succ n ih =>
    intro l1 l2 t h1 h2
    cases l1 with
    | nil => simp at h1
    | cons p l1 =>
      cases l2 with
      | nil => simp at h2
      | cons q l2 =>
        simp only [List.zip_cons_cons, List.take_succ_cons, listLoop, bind_ok, ProdFn.dotLoop]
        exact ih l1 l2 _ (by simpa using h1) (by simpa using h2)

/-- **C103** (vectors, partial).  With Duff's device, `v *= t`, `v /= t` and the assignments `v op= e` of non-empty dense vectors do what they do without it, by indexing and by iterators
that visit `size` elements.  Missing: size 0 (refuted below). -/
theorem C103_vector_assign_partial [Add R] [Sub R] [Zero R] (W : Nat) (dbg : Bool) (T : VT σ R) (F : R → R) (G : AssignF) (e : VExpr σ R) (s : σ) (hn : 0 < T.size s) (hr : T.size s ≤ 2 * W) (he : e.size = T.size s)
    (hit : (T.its s).length = T.size s) (hie : (e.begin_ s).length = e.size) :
    VAssign.indexingScalarDuff W T F s = VAssign.indexingScalar T F s ∧ VAssign.iteratingScalarDuff W dbg T F s = VAssign.iteratingScalar dbg T F s ∧
    VAssign.indexingDuff W dbg T G e s = VAssign.indexing dbg T G e s ∧ VAssign.iteratingDuff W dbg T G e s = VAssign.iterating dbg T G e s := by
  refine ⟨?_, ?_, ?_, ?_⟩
  · exact duffLoop_pos _ _ _ (by omega) hn (by omega) _ _
  · simp only [VAssign.iteratingScalarDuff, VAssign.iteratingScalar, hit, check_True, bind_ok, Nat.lt_irrefl, if_false]
    rw [duffIter_pos _ _ _ (by omega) hn (by omega) _ _ (by omega), scalarLoop_list]
  · simp only [VAssign.indexingDuff, VAssign.indexing, same, he, check_True, bind_ok, pure_eq_ok, Nat.min_self]
    exact duffLoop_pos _ _ _ (by omega) hn (by omega) _ _
  · simp only [VAssign.iteratingDuff, VAssign.iterating, same, he, hit, hie, check_True, bind_ok, pure_eq_ok, Nat.min_self, Nat.lt_irrefl, or_self, if_false]
    rw [duffIter_pos _ _ _ (by omega) hn (by omega) _ _ (by rw [List.length_zip]; omega), take_zip', zipLoop_list]

theorem loop_congr_duff {f g : Nat → σ → M σ} (h : ∀ i s, f i s = g i s) (n : Nat) (s : σ) : loop f n s = loop g n s := by
  have : f = g := by funext i s; exact h i s
  rw [this]

theorem iterScalarLines_duff (W : Nat) (dbg : Bool) (T : MT σ R) (F : R → R) (n : Nat) (hn : 0 < n) (hr : n ≤ 4 * W) (hl : ∀ s k, (T.its s k).length = n) (ls : List Nat) (s : σ) :
    MAssign.iterScalarLinesDuff W dbg T F n ls s = MAssign.iterScalarLines dbg T F n ls s := by
  induction ls generalizing s with
  | nil => rfl
  | cons k ls ih =>
    simp only [MAssign.iterScalarLinesDuff, MAssign.iterScalarLines, hl, check_True, bind_ok, Nat.lt_irrefl, if_false]
    rw [duffIter_pos _ _ _ (by omega) hn hr _ _ (by rw [hl]), scalarLoop_list]
    congr 1; funext s'; exact ih s'

theorem iterLines_duff [Add R] [Sub R] [Zero R] (W : Nat) (dbg : Bool) (T : MT σ R) (F : AssignF) (n : Nat) (hn : 0 < n) (hr : n ≤ 2 * W) (hl : ∀ s k, (T.its s k).length = n) (ls : List Nat)
    (qs : List (Nat × List (Nat × R))) (hq : ∀ q ∈ qs, q.2.length = n) (s : σ) : MAssign.iterLinesDuff W dbg T F n ls qs s = MAssign.iterLines dbg T F n ls qs s := by
  induction ls generalizing s qs with
  | nil => cases qs <;> rfl
  | cons k ls ih =>
    cases qs with
    | nil => rfl
    | cons q qs =>
      have h := hq q (List.mem_cons_self ..)
      simp only [MAssign.iterLinesDuff, MAssign.iterLines, hl, h, check_True, bind_ok, Nat.lt_irrefl, or_self, if_false]
      rw [duffIter_pos _ _ _ (by omega) hn hr _ _ (by rw [List.length_zip, hl, h]; omega), take_zip', ← zipLoop_list, List.zip_map_right, listLoop_map]
      congr 1; funext s'; exact ih _ (fun q hm => hq q (List.mem_cons_of_mem _ hm)) s'

/-- **C103** (matrices, partial): the assignments of matrices with non-empty lines, by indexing and by iterators that visit every element.  `hs`: the operations keep the size (every dense target of
the library does). -/
theorem C103_matrix_assign_partial [Add R] [Sub R] [Zero R] (W : Nat) (dbg : Bool) (T : MT σ R) (F : R → R) (G : AssignF) (e : MExp R) (s : σ) (n : Nat) (hn : 0 < n) (hr : n ≤ 2 * W)
    (hs : ∀ s, T.sizem s = n) (hl : ∀ s k, (T.its s k).length = n) (he1 : e.sizeM = T.sizeM s) (he2 : e.sizem = n) (hq : ∀ q ∈ e.lines, q.2.length = n) :
    MAssign.indexingScalarDuff W T F s = MAssign.indexingScalar T F s ∧ MAssign.indexingDuff W dbg T G e s = MAssign.indexing dbg T G e s ∧
    MAssign.iteratingScalarDuff W dbg T F s = MAssign.iteratingScalar dbg T F s ∧ MAssign.iteratingDuff W dbg T G e s = MAssign.iterating dbg T G e s := by
  refine ⟨loop_congr_duff (fun i s => ?_) _ _, ?_, ?_, ?_⟩
  · rw [hs]
    exact duffLoop_pos _ _ _ (by omega) hn (by omega) _ _
  · simp only [MAssign.indexingDuff, MAssign.indexing, same, he1, he2, hs, check_True, bind_ok, pure_eq_ok, Nat.min_self]
    exact loop_congr_duff (fun i s => duffLoop_pos _ _ _ (by omega) hn (by omega) _ _) _ _
  · simp only [MAssign.iteratingScalarDuff, MAssign.iteratingScalar, hs]
    rw [if_neg (show ¬ n = 0 from by omega)]
    congr 1; funext _
    rw [iterScalarLines_duff W dbg T F n hn (by omega) hl]
  · simp only [MAssign.iteratingDuff, MAssign.iterating, same, he1, he2, hs, check_True, bind_ok, pure_eq_ok, Nat.min_self]
    rw [if_neg (show ¬ n = 0 from by omega)]
    congr 1; funext _; congr 1; funext _
    rw [iterLines_duff W dbg T G n hn hr hl _ _ (fun q hm => hq q (List.mem_of_mem_take hm))]

/-- **C103** (products, partial): inner products and the elements of `prod` with a positive common size. -/
theorem C103_prod_partial [Semiring R] (W : Nat) (dbg : Bool) (a b : Seq R) (hab : a.size = b.size) (hn : 0 < a.size) (hr : a.size ≤ 4 * W) :
    ProdFn.byIndexDuff W dbg a b = ProdFn.byIndex dbg a b ∧
    (a.size ≤ a.els.length → b.size ≤ b.els.length → ProdFn.denseDuff W a.size a.els b.els = ProdFn.dense a.size a.els b.els) := by
  refine ⟨?_, fun h1 h2 => ?_⟩
  · simp only [ProdFn.byIndexDuff, ProdFn.byIndex, same, hab, check_True, bind_ok, pure_eq_ok, Nat.min_self]
    exact duffLoop_pos _ _ _ (by omega) (by omega) (by omega) _ _
  · rw [ProdFn.denseDuff, ProdFn.dense, duffIter_pos _ _ _ (by omega) hn (by omega) _ _ (by rw [List.length_zip]; omega)]
    exact dotLoop_list _ _ _ _ h1 (by omega)

theorem times_pos_error (body : σ → M σ) (s : σ) (e : Fault) (h : body s = .error e) : ∀ n, 0 < n → times body n s = .error e := by
  intro n hn
  cases n with
  | zero => omega
  | succ n => simp only [times, h, bind_error]

theorem duffIter_empty {β : Type} (W : Nat) (hW : 0 < W) (d : Nat) (hd : 0 < d) (f : β → σ → M σ) (s : σ) : duffIter W 0 d f [] s = .error .ub := by
  rw [duffIter_eq, duff_zero W d hW hd, times_pos_error (iterStep f) (s, []) .ub rfl _ (Nat.mul_pos hd hW)]
  rfl

/-- **C103** refuted part.  Empty operands: the body runs although there is nothing to do, and at once reads an element that does not exist.  `v *= t` on an empty vector,
`inner_prod` of two empty vectors, a product over an empty common dimension, by indexing and by iterators; without Duff's device they are harmless. -/
theorem C103_empty_refuted (W : Nat) (hW : 0 < W) (dbg : Bool) (mem : List Int) (t : Int) :
    VAssign.indexingScalarDuff W (VT.view dbg 0 id) (· * t) ([] : List Int) = .error (if dbg then .badIndex else .ub) ∧ VAssign.indexingScalar (VT.view dbg 0 id) (· * t) ([] : List Int) = .ok [] ∧
    VAssign.iteratingScalarDuff W dbg (VT.view dbg 0 id) (· * t) mem = .error .ub ∧ VAssign.iteratingScalar dbg (VT.view dbg 0 id) (· * t) mem = .ok mem ∧
    ProdFn.denseDuff W 0 ([] : List (Nat × Int)) [] = .error .ub ∧ ProdFn.dense 0 ([] : List (Nat × Int)) [] = .ok 0 ∧
    (∀ (a b : Seq Int) (e : Fault), a.size = 0 → b.size = 0 → a.at_ 0 = .error e → ProdFn.byIndexDuff W dbg a b = .error e ∧ ProdFn.byIndex dbg a b = .ok 0) := by
  refine ⟨?_, ?_, ?_, ?_, ?_, ?_, ?_⟩
  · unfold VAssign.indexingScalarDuff duffLoop
    rw [show (VT.view dbg 0 id : VT (List Int) Int).size [] = 0 from rfl, duff_zero W 4 hW (by omega), times_pos_error _ _ (if dbg then .badIndex else .ub) ?_ _ (by omega)]
    · rfl
    · cases dbg <;> rfl
  · rfl
  · have hE := fun (f : Nat → List Int → M (List Int)) => duffIter_empty W hW 4 (by omega) f mem
    simp only [VAssign.iteratingScalarDuff, show (VT.view dbg 0 id : VT (List Int) Int).size mem = 0 from rfl, show (VT.view dbg 0 id : VT (List Int) Int).its mem = [] from rfl, List.length_nil,
      check_True, bind_ok, hE]
  · simp only [VAssign.iteratingScalar, show (VT.view dbg 0 id : VT (List Int) Int).size mem = 0 from rfl, show (VT.view dbg 0 id : VT (List Int) Int).its mem = [] from rfl, List.length_nil, check_True,
      bind_ok, Nat.lt_irrefl, if_false, List.take_nil, VAssign.scalarLoop]
  · exact duffIter_empty W hW 4 (by omega) _ _
  · rfl
  · intro a b e ha hb hat
    constructor
    · unfold ProdFn.byIndexDuff duffLoop
      simp only [same, ha, hb, check_True, bind_ok, pure_eq_ok, Nat.min_self]
      rw [duff_zero W 4 hW (by omega), times_pos_error _ _ e (by simp only [hat, bind_error]) _ (by omega)]
      rfl
    · simp only [ProdFn.byIndex, same, ha, hb, check_True, bind_ok, pure_eq_ok, Nat.min_self, loop]

/-- **C103** refuted part, very large sizes: the counter of type `unsigned` drops rounds.  For every d > 0 a loop of d·W + d steps is cut to d steps. -/
theorem C103_large_refuted (W d : Nat) (hW : 1 < W) (hd : 0 < d) (body : σ → M σ) (s : σ) : duff W (d * W + d) d body s = times body d s := by
  rw [duff_times]
  congr 1
  have h1 : (d * W + d) % d = 0 := by rw [Nat.add_mod_right]; exact Nat.mul_mod_right _ _
  have h2 : (d * W + d + d - 1) / d = W + 1 := by
    rw [show d * W + d + d - 1 = (d - 1) + d * (W + 1) from by rw [Nat.mul_add]; omega, Nat.add_mul_div_left _ _ hd, Nat.div_eq_of_lt (by omega), Nat.zero_add]
  rw [if_pos h1, h2, Nat.add_mod_left, Nat.mod_eq_of_lt hW, show 1 + W - 1 = W from by omega, Nat.mod_self, Nat.zero_mul, Nat.add_zero]

/-- The hypotheses are met: `v *= 3` on a vector of five elements. -/
example : VAssign.indexingScalarDuff (2 ^ 32) (VT.view true 5 id) (· * 3) [1, 2, 3, 4, (5 : Int)] = .ok [3, 6, 9, 12, 15] := by
  rw [(C103_vector_assign_partial (2 ^ 32) true (VT.view true 5 id) (· * 3) .assign (VExpr.const ⟨5, .dense, [(0, 0), (1, 0), (2, 0), (3, 0), (4, 0)], fun _ => .ok (0 : Int)⟩) [1, 2, 3, 4, 5]
    (by decide) (by decide) rfl rfl rfl).1]
  rfl

/-- The same for `m += e` by iterators on a 2×3 matrix. -/
example : MAssign.iteratingDuff (2 ^ 32) true (MT.view true 2 3 fun i j => 3 * i + j) .plus ⟨2, 3, .dense, [(0, [(0, 10), (1, 20), (2, 30)]), (1, [(0, 40), (1, 50), (2, 60)])], fun _ _ => .ok (0 : Int)⟩
    [1, 2, 3, 4, 5, 6] = .ok [11, 22, 33, 44, 55, 66] := by
  rw [(C103_matrix_assign_partial (2 ^ 32) true (MT.view true 2 3 fun i j => 3 * i + j) (· * 3) .plus _ [1, 2, 3, 4, 5, 6] 3 (by decide) (by decide) (fun _ => rfl) (fun _ _ => rfl) rfl rfl
    (by decide)).2.2.2]
  rfl

/-- And for the inner product of two vectors of three elements. -/
example : ProdFn.denseDuff (2 ^ 32) 3 [(0, 1), (1, 2), (2, (3 : Int))] [(0, 4), (1, 5), (2, 6)] = .ok 32 := by
  rw [(C103_prod_partial (2 ^ 32) true ⟨3, .dense, [(0, 1), (1, 2), (2, (3 : Int))], fun _ => .ok 0⟩ ⟨3, .dense, [(0, 4), (1, 5), (2, 6)], fun _ => .ok 0⟩ rfl (by decide) (by decide)).2 (by decide) (by decide)]
  rfl

end Ublas
