import Verif.Spec.MatrixVector
import Verif.Props.Dense
/-! # C93: a matrix as a vector of rows or columns -/
namespace Ublas
variable {α σ : Type}

theorem LineAxis.read_eq (dbg : Bool) (o : Orient) (ax : LineAxis) (m : Dense α) (k j : Nat) :
    (ax.line k).read dbg o m j = (match ax with | .rows => m.get dbg o k j | .columns => m.get dbg o j k) := by
  cases ax <;> rfl

theorem LineAxis.write_eq (dbg : Bool) (o : Orient) (ax : LineAxis) (m : Dense α) (k j : Nat) (t : α) :
    (ax.line k).write dbg o m j t = (match ax with | .rows => m.set dbg o k j t | .columns => m.set dbg o j k t) := by
  cases ax <;> rfl

/-- The lines are the rows (columns) of the matrix: element `j` of line `k` is element (k, j) (respectively (j, k)); reading outside
is refused in a build with checks. -/
theorem C93_lines (o : Orient) (m : Dense α) (k j : Nat) (t : α) :
    (∀ dbg, (LineAxis.rows.line k).read dbg o m j = m.get dbg o k j ∧ (LineAxis.columns.line k).read dbg o m j = m.get dbg o j k) ∧
    (∀ ax : LineAxis, ¬ (k < ax.size m ∧ j < ax.width m) →
      (ax.line k).read true o m j = .error .badIndex ∧ (ax.line k).write true o m j t = .error .badIndex) := by
  refine ⟨fun dbg => ⟨rfl, rfl⟩, ?_⟩
  intro ax h
  rw [LineAxis.read_eq, LineAxis.write_eq]
  cases ax
  · obtain ⟨a, b, _⟩ := C04_out_of_range_rejected o t t m k j h
    exact ⟨a, b⟩
  · obtain ⟨a, b, _⟩ := C04_out_of_range_rejected o t t m j k (fun hh => h ⟨hh.2, hh.1⟩)
    exact ⟨a, b⟩

namespace LineIt

theorem equal_same (dbg : Bool) (mat : Nat) (a b : Int) : (LineIt.mk mat a).equal dbg ⟨mat, b⟩ = .ok (decide (a = b)) := by
  unfold equal; rw [check_true rfl]; rfl

theorem forEach_from (dbg : Bool) (ax : LineAxis) (body : MVRef → σ → M σ) (mat n : Nat) :
    ∀ (d fuel p : Nat) (s : σ), p + d = n → d ≤ fuel →
      forEach dbg ax body fuel ⟨mat, p⟩ ⟨mat, n⟩ s = loop (fun k s => body (ax.line (p + k)) s) d s := by
  intro d
  induction d with
  | zero =>
    intro fuel p s h1 _
    have : (p : Int) = (n : Int) := by omega
    cases fuel <;> simp only [forEach, equal_same, this, decide_true, bind_ok, if_true, loop]
  | succ d ih =>
    intro fuel p s h1 h2
    obtain ⟨f, rfl⟩ : ∃ f, fuel = f + 1 := ⟨fuel - 1, by omega⟩
    have hne : ¬ (p : Int) = (n : Int) := by omega
    have hstep : ∀ s, forEach dbg ax body f (inc ⟨mat, p⟩) ⟨mat, n⟩ s = loop (fun k s => body (ax.line (p + 1 + k)) s) d s := by
      intro s; exact ih f (p + 1) s (by omega) (by omega)
    rw [forEach]
    simp only [equal_same, hne, decide_false, bind_ok, Bool.false_eq_true, if_false, hstep]
    have hd : deref ax ⟨mat, p⟩ = ax.line p := by simp [deref]
    rw [hd]
    clear ih hstep h1 h2 hne
    -- first round out of the loop
    have aux : ∀ (d : Nat) (g : Nat → σ → M σ) (s : σ), loop g (d + 1) s = g 0 s >>= fun s => loop (fun k s => g (k + 1) s) d s := by
      intro d g
      induction d with
      | zero => intro s; simp only [loop, bind_ok]; cases g 0 s <;> rfl
      | succ d ih =>
        intro s
        rw [loop, ih]
        cases g 0 s with
        | error e => rfl
        | ok s' => rfl
    rw [aux]
    simp only [Nat.add_zero, Nat.add_comm 1, Nat.add_assoc]

theorem forEachReverse_from (dbg : Bool) (ax : LineAxis) (body : MVRef → σ → M σ) (mat : Nat) :
    ∀ (n fuel : Nat) (s : σ), n ≤ fuel →
      forEachReverse dbg ax body fuel ⟨mat, n⟩ ⟨mat, 0⟩ s = loop (fun k s => body (ax.line (n - 1 - k)) s) n s := by
  intro n
  induction n with
  | zero =>
    intro fuel s _
    cases fuel <;> simp only [forEachReverse, equal_same, Int.natCast_zero, decide_true, bind_ok, if_true, loop]
  | succ n ih =>
    intro fuel s h2
    obtain ⟨f, rfl⟩ : ∃ f, fuel = f + 1 := ⟨fuel - 1, by omega⟩
    have hne : ¬ ((n + 1 : Nat) : Int) = 0 := by omega
    have hpred : dec ⟨mat, ((n + 1 : Nat) : Int)⟩ = ⟨mat, (n : Int)⟩ := by
      unfold dec; simp
    have hd : deref ax ⟨mat, n⟩ = ax.line n := by simp [deref]
    rw [forEachReverse]
    simp only [equal_same, hne, decide_false, bind_ok, Bool.false_eq_true, if_false, hpred, hd]
    have aux : ∀ (d : Nat) (g : Nat → σ → M σ) (s : σ), loop g (d + 1) s = g 0 s >>= fun s => loop (fun k s => g (k + 1) s) d s := by
      intro d g
      induction d with
      | zero => intro s; simp only [loop, bind_ok]; cases g 0 s <;> rfl
      | succ d ih =>
        intro s
        rw [loop, ih]
        cases g 0 s with
        | error e => rfl
        | ok s' => rfl
    rw [aux]
    simp only [Nat.add_sub_cancel, Nat.sub_zero]
    congr 1
    funext s'
    rw [ih f s' (by omega)]
    congr 1
    funext k s''
    rw [show n - 1 - k = n - (k + 1) by omega]

end LineIt

/-- Iteration passes every line exactly once, in order of position, from `begin ()` to `end ()`, and in the opposite order from `rbegin ()` to `rend ()`,
and terminates (any number of rounds from `size ()` on gives the same result). -/
theorem C93_iteration (dbg : Bool) (ax : LineAxis) (m : Dense α) (mat : Nat) (body : MVRef → σ → M σ) (s : σ) (fuel : Nat) (hf : ax.size m ≤ fuel) :
    LineIt.forEach dbg ax body fuel (.begin_ mat) (.end_ ax mat m) s = loop (fun k s => body (ax.line k) s) (ax.size m) s ∧
    LineIt.forEachReverse dbg ax body fuel (.end_ ax mat m) (.begin_ mat) s = loop (fun k s => body (ax.line (ax.size m - 1 - k)) s) (ax.size m) s := by
  refine ⟨?_, LineIt.forEachReverse_from dbg ax body mat _ _ _ hf⟩
  have := LineIt.forEach_from dbg ax body mat (ax.size m) (ax.size m) fuel 0 s (by omega) hf
  simp only [Nat.zero_add] at this
  exact this

/-- Random access: moving by `n` and measuring distances agree, `+ n` then dereference is line `pos + n`, and iterators of different
matrices are refused in a build with checks. -/
theorem C93_random_access (dbg : Bool) (ax : LineAxis) (it jt : LineIt) (n k : Int) (h : it.mat = jt.mat) :
    it.distanceTo dbg (it.advance n) = .ok n ∧
    (∀ d, it.distanceTo dbg jt = .ok d → it.advance d = jt) ∧
    (it.advance n).advance k = it.advance (n + k) ∧ it.inc = it.advance 1 ∧ it.dec = it.advance (-1) ∧ it.inc.dec = it ∧
    (it.equal dbg jt = .ok true ↔ it.distanceTo dbg jt = .ok 0) ∧
    (∀ p : Nat, (it.advance (p - it.pos)).deref ax = ax.line p) ∧
    (∀ other : LineIt, other.mat ≠ it.mat → it.equal true other = .error .externalLogic ∧ it.distanceTo true other = .error .externalLogic) := by
  obtain ⟨a, p⟩ := it
  obtain ⟨b, q⟩ := jt
  replace h : a = b := h
  subst h
  refine ⟨?_, ?_, ?_, rfl, ?_, ?_, ?_, ?_, ?_⟩
  · unfold LineIt.distanceTo LineIt.advance
    rw [check_true rfl, bind_ok]
    dsimp only; congr 1; omega
  · intro d hd
    unfold LineIt.distanceTo at hd
    rw [check_true rfl, bind_ok] at hd
    injection hd with hd
    dsimp only at hd
    unfold LineIt.advance
    dsimp only; congr 1; omega
  · unfold LineIt.advance; dsimp only; congr 1; omega
  · unfold LineIt.advance LineIt.dec; dsimp only; congr 1
  · unfold LineIt.inc LineIt.dec; dsimp only; congr 1; omega
  · rw [LineIt.equal_same]
    unfold LineIt.distanceTo
    rw [check_true rfl, bind_ok]
    simp only [Except.ok.injEq, decide_eq_true_eq]
    omega
  · intro k
    unfold LineIt.advance LineIt.deref
    dsimp only
    congr 1; omega
  · intro other ho
    constructor
    · unfold LineIt.equal; rw [check_dbg_false (Ne.symm ho)]; rfl
    · unfold LineIt.distanceTo; rw [check_dbg_false (Ne.symm ho)]; rfl

/-- The translation of `LineOp` to operations of the matrix. -/
def LineAxis.toOp (ax : LineAxis) (m : DenseSpec.Spec α) : LineOp α → Dense.Op α
  | .set k j t => (match ax with | .rows => .insert k j t | .columns => .insert j k t)
  | .resize n p => (match ax with | .rows => .resize n m.cols p | .columns => .resize m.rows n p)

def LineAxis.toSpec (ax : LineAxis) (s : Lines α) : DenseSpec.Spec α :=
  match ax with
  | .rows => ⟨s.count, s.width, s.val⟩
  | .columns => ⟨s.width, s.count, fun i j => s.val j i⟩

theorem LineAxis.step_shows (dbg : Bool) (o : Orient) (ax : LineAxis) (junk : Nat → α) (m : Dense α) (s : Lines α) (op : LineOp α)
    (hw : m.WF) (h : ax.Shows dbg o m s) (hl : s.legal op) :
    ∃ m', ax.step dbg o junk m op = .ok m' ∧ m'.WF ∧ ax.Shows dbg o m' (s.step op) := by
  have toI : ∀ (m : Dense α) (s : Lines α), ax.Shows dbg o m s ↔ DenseSpec.Implements dbg o m (ax.toSpec s) := by
    intro m s
    cases ax
    · exact Iff.rfl
    · constructor
      · rintro ⟨a, b, c⟩; exact ⟨b, a, fun i j hi hj => c j i hj hi⟩
      · rintro ⟨a, b, c⟩; exact ⟨b, a, fun i j hi hj => c j i hj hi⟩
  by_cases hz : Nonempty α
  swap
  · -- no element values: only resize is possible
    cases op with
    | set k j t => exact absurd ⟨t⟩ hz
    | resize n p => exact absurd ⟨junk 0⟩ hz
  obtain ⟨zero⟩ := hz
  have hI := (toI m s).1 h
  obtain ⟨m', e, w, hI'⟩ := step_implements dbg o zero junk m (ax.toSpec s) (ax.toOp (ax.toSpec s) op) hw hI (by
    cases op with
    | set k j t => cases ax
                   · exact hl
                   · exact ⟨hl.2, hl.1⟩
    | resize n p => cases ax <;> exact trivial)
  refine ⟨m', ?_, w, (toI _ _).2 ?_⟩
  · obtain ⟨a, b, _⟩ := hI
    cases op with
    | set k j t => cases ax <;> exact e
    | resize n p => cases ax
                    · show m.resize dbg o junk n m.size2 p = .ok m'
                      rw [b]; exact e
                    · show m.resize dbg o junk m.size1 n p = .ok m'
                      rw [a]; exact e
  · have es : DenseSpec.step zero (ax.toSpec s) (ax.toOp (ax.toSpec s) op) = ax.toSpec (s.step op) := by
      cases op with
      | set k j t => cases ax
                     · rfl
                     · simp only [LineAxis.toOp, LineAxis.toSpec, DenseSpec.step, Lines.step]
                       congr 1; funext a b; simp only [and_comm]
      | resize n p => cases ax <;> cases p
                      · rfl
                      · rfl
                      · rfl
                      · simp only [LineAxis.toOp, LineAxis.toSpec, DenseSpec.step, Lines.step]
                        congr 1; funext a b; by_cases h1 : a < s.width <;> by_cases h2 : b < s.count <;> simp [h1, h2]
    rw [← es]; exact hI'

/-- A matrix used through its vector of lines behaves as a vector of lines: after any legal history of element assignments
`v [k] (j) = t` and of `v.resize (n, preserve)`, nothing has faulted, `size ()` is the number of lines and every specified element reads back;
resizing keeps the width of the lines and, when asked, the lines themselves. -/
theorem C93_history (dbg : Bool) (o : Orient) (ax : LineAxis) (ops : List (LineOp α × (Nat → α))) :
    ∀ (m : Dense α) (s : Lines α), m.WF → ax.Shows dbg o m s → s.legalRun ops →
      ∃ m', ax.run dbg o m ops = .ok m' ∧ m'.WF ∧ ax.Shows dbg o m' (s.run ops) := by
  induction ops with
  | nil => intro m s hw hm _; exact ⟨m, rfl, hw, hm⟩
  | cons x ops ih =>
    obtain ⟨op, junk⟩ := x
    intro m s hw hm hl
    obtain ⟨m1, e1, hw1, hm1⟩ := LineAxis.step_shows dbg o ax junk m s op hw hm hl.1
    obtain ⟨m2, e2, hw2, hm2⟩ := ih m1 _ hw1 hm1 hl.2
    exact ⟨m2, by simp [LineAxis.run, e1, e2], hw2, hm2⟩

/-- A history meeting the hypotheses: two columns of a row-major 2 × 2 matrix, one written, then a third column added. -/
example : (⟨2, 2, [1, 2, 3, 4]⟩ : Dense Int).WF ∧
    (Lines.mk 2 2 (fun _ _ => none) : Lines Int).legalRun [(.set 1 0 9, fun _ => 0), (.resize 3 true, fun _ => 77), (.set 2 1 5, fun _ => 0)] ∧
    LineAxis.columns.run true .row (⟨2, 2, [1, 2, 3, 4]⟩ : Dense Int) [(.set 1 0 9, fun _ => 0), (.resize 3 true, fun _ => 77), (.set 2 1 5, fun _ => 0)] =
      .ok ⟨2, 3, [1, 9, 77, 3, 4, 5]⟩ :=
  ⟨rfl, ⟨⟨by decide, by decide⟩, trivial, ⟨by decide, by decide⟩, trivial⟩, by decide⟩

/-- Every well-formed matrix shows its own elements, so histories can start anywhere. -/
theorem C93_initial (dbg : Bool) (o : Orient) (ax : LineAxis) (m : Dense α) (hw : m.WF) :
    ax.Shows dbg o m ⟨ax.size m, ax.width m, fun k j => ((ax.line k).read dbg o m j).toOption⟩ := by
  refine ⟨rfl, rfl, ?_⟩
  intro k j hk hj
  have : ∃ x, (ax.line k).read dbg o m j = .ok x := by
    rw [LineAxis.read_eq]
    cases ax
    · exact ⟨_, (Dense.get_eq dbg o m hw (i := k) (j := j) hk hj).2⟩
    · exact ⟨_, (Dense.get_eq dbg o m hw (i := j) (j := k) hj hk).2⟩
  obtain ⟨x, e⟩ := this
  refine ⟨x, e, ?_⟩
  intro w hw
  dsimp only at hw
  rw [e] at hw
  exact Option.some.inj hw

/-- A body that changes every element of the line it is given: `for (j = 0; j != line.size (); ++ j) line (j) = g (line (j))`. -/
def LineAxis.mapLine (dbg : Bool) (o : Orient) (ax : LineAxis) (g : α → α) (v : MVRef) (m : Dense α) : M (Dense α) :=
  loop (fun j m => do let x ← v.read dbg o m j; v.write dbg o m j (g x)) (ax.width m) m

/-- Updating each line in turn through iterators updates every element of the matrix exactly once. -/
theorem C93_update_all (dbg : Bool) (o : Orient) (ax : LineAxis) (m : Dense α) (hw : m.WF) (mat : Nat) (g : α → α) :
    ∃ m', LineIt.forEach dbg ax (ax.mapLine dbg o g) (ax.size m) (.begin_ mat) (.end_ ax mat m) m = .ok m' ∧ m'.WF ∧
      m'.size1 = m.size1 ∧ m'.size2 = m.size2 ∧
      ∀ i j x, i < m.size1 → j < m.size2 → m.get dbg o i j = .ok x → m'.get dbg o i j = .ok (g x) := by
  rw [(C93_iteration dbg ax m mat _ m _ (Nat.le_refl _)).1]
  -- coordinates of element j of line k
  let at_ : Nat → Nat → Nat × Nat := fun k j => match ax with | .rows => (k, j) | .columns => (j, k)
  have hrd : ∀ (m : Dense α) k j, (ax.line k).read dbg o m j = m.get dbg o (at_ k j).1 (at_ k j).2 := by
    intro m k j; rw [LineAxis.read_eq]; cases ax <;> rfl
  have hwr : ∀ (m : Dense α) k j t, (ax.line k).write dbg o m j t = m.set dbg o (at_ k j).1 (at_ k j).2 t := by
    intro m k j t; rw [LineAxis.write_eq]; cases ax <;> rfl
  have hin : ∀ k j, k < ax.size m → j < ax.width m → (at_ k j).1 < m.size1 ∧ (at_ k j).2 < m.size2 := by
    intro k j hk hj; cases ax
    · exact ⟨hk, hj⟩
    · exact ⟨hj, hk⟩
  have hinj : ∀ k j k' j', at_ k j = at_ k' j' → k = k' ∧ j = j' := by
    intro k j k' j' h; cases ax
    · exact ⟨congrArg Prod.fst h, congrArg Prod.snd h⟩
    · exact ⟨congrArg Prod.snd h, congrArg Prod.fst h⟩
  have hsurj : ∀ i j, i < m.size1 → j < m.size2 → ∃ k l, k < ax.size m ∧ l < ax.width m ∧ at_ k l = (i, j) := by
    intro i j hi hj; cases ax
    · exact ⟨i, j, hi, hj, rfl⟩
    · exact ⟨j, i, hj, hi, rfl⟩
  let Good : (Nat → Nat → Prop) → Dense α → Prop := fun P m' =>
    m'.WF ∧ m'.size1 = m.size1 ∧ m'.size2 = m.size2 ∧
    ∀ k j x, k < ax.size m → j < ax.width m → m.get dbg o (at_ k j).1 (at_ k j).2 = .ok x →
      (P k j → m'.get dbg o (at_ k j).1 (at_ k j).2 = .ok (g x)) ∧ (¬ P k j → m'.get dbg o (at_ k j).1 (at_ k j).2 = .ok x)
  obtain ⟨m', e, hG⟩ := loop_inv (n := ax.size m) (s := m) (f := fun k s => ax.mapLine dbg o g (ax.line k) s)
    (fun k m' => Good (fun a _ => a < k) m')
    ⟨hw, rfl, rfl, fun k j x _ _ hx => ⟨fun h => absurd h (Nat.not_lt_zero _), fun _ => hx⟩⟩ (by
      intro k m1 hk h1
      unfold LineAxis.mapLine
      have hwd : ax.width m1 = ax.width m := by
        obtain ⟨_, a, b, _⟩ := h1
        cases ax
        · exact b
        · exact a
      rw [hwd]
      obtain ⟨m2, e2, h2⟩ := loop_inv (n := ax.width m) (s := m1)
        (f := fun j m => (do let x ← (ax.line k).read dbg o m j; (ax.line k).write dbg o m j (g x) : M (Dense α)))
        (fun j m' => Good (fun a b => a < k ∨ (a = k ∧ b < j)) m') (by
          obtain ⟨a, b, c, d⟩ := h1
          refine ⟨a, b, c, fun k' j' x hk' hj' hx => ?_⟩
          obtain ⟨d1, d2⟩ := d k' j' x hk' hj' hx
          exact ⟨fun h => d1 (by omega), fun h => d2 (by omega)⟩) (by
        intro j m3 hj h3
        obtain ⟨a, b, c, d⟩ := h3
        obtain ⟨i1, i2⟩ := hin k j hk hj
        have hx := (Dense.get_eq dbg o m hw (i := (at_ k j).1) (j := (at_ k j).2) i1 i2).2
        obtain ⟨_, d2⟩ := d k j _ hk hj hx
        have hr := d2 (by omega)
        rw [hrd, hr, bind_ok, hwr]
        have hs := Dense.set_eq dbg o m3 a (i := (at_ k j).1) (j := (at_ k j).2) (g (m.data[o.elementRaw (at_ k j).1 m.size1 (at_ k j).2 m.size2]'(Dense.get_eq dbg o m hw i1 i2).1)) (by omega) (by omega)
        refine ⟨_, hs, ?_⟩
        obtain ⟨w1, w2, w3, w4⟩ := Dense.get_set dbg o m3 _ a (i := (at_ k j).1) (j := (at_ k j).2) _ (by omega) (by omega) hs
        refine ⟨w1, by rw [w2, b], by rw [w3, c], fun k' j' x hk' hj' hx' => ?_⟩
        obtain ⟨i1', i2'⟩ := hin k' j' hk' hj'
        rw [w4 _ _ (by omega) (by omega)]
        obtain ⟨d1', d2'⟩ := d k' j' x hk' hj' hx'
        by_cases hsame : k' = k ∧ j' = j
        · obtain ⟨rfl, rfl⟩ := hsame
          rw [if_pos ⟨rfl, rfl⟩]
          rw [hx] at hx'
          injection hx' with hx'
          rw [hx']
          exact ⟨fun _ => rfl, fun h => absurd (Or.inr ⟨rfl, Nat.lt_succ_self _⟩) h⟩
        · rw [if_neg (fun hh => hsame (hinj k' j' k j (Prod.ext hh.1 hh.2)))]
          exact ⟨fun h => d1' (by omega), fun h => d2' (by omega)⟩)
      refine ⟨m2, e2, h2.1, h2.2.1, h2.2.2.1, fun k' j' x hk' hj' hx => ?_⟩
      obtain ⟨q1, q2⟩ := h2.2.2.2 k' j' x hk' hj' hx
      exact ⟨fun h => q1 (by omega), fun h => q2 (by omega)⟩)
  exact ⟨m', e, hG.1, hG.2.1, hG.2.2.1, by
    intro i j x hi hj hx
    obtain ⟨k, l, hk, hl, ha⟩ := hsurj i j hi hj
    obtain ⟨q, _⟩ := hG.2.2.2 k l x hk hl (by rw [ha]; exact hx)
    have := q hk
    rw [ha] at this; exact this⟩

end Ublas
