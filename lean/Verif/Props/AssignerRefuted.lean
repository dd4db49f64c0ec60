import Verif.Props.AssignerBlocks
/-! # C57: containers as targets, and scripts that do not do what they should -/
namespace Ublas.Assigner
open SparseSpec
variable {σ R : Type}

/-- Element access of a dense vector is lawful and, with checks, guarded. -/
theorem vector_target [Zero R] (dbg : Bool) (n : Nat) : (VT.view dbg n id : VT (List R) R).acc.Lawful (· < n) (fun v w => Ublas.Holds v n w) ∧ Guarded (VT.view true n id : VT (List R) R).acc (· < n) (fun v w => Ublas.Holds v n w) := by
  refine ⟨⟨fun v w h i hi => ?_, fun v w h i hi t => ⟨v.set i t, ?_, by simpa using h.1, fun k hk => ?_⟩⟩, fun v w _ i hi => ⟨?_, fun x => ?_⟩⟩
  · show (do check dbg (i < n) .badIndex; rd dbg v (id i)) = _
    rw [check_true hi, bind_ok]
    exact rd_eq_ok.2 (h.2 i hi)
  · show (do check dbg (i < n) .badIndex; wr dbg v (id i) t) = _
    rw [check_true hi, bind_ok]
    exact wr_ok (by rw [h.1]; exact hi)
  · rw [List.getElem?_set, Function.update_apply]
    by_cases e : i = k
    · subst e; simp [h.1, hk]
    · have e' : ¬ k = i := fun h => e h.symm
      simp [e, e', h.2 k hk]
  · show (do check true (i < n) .badIndex; rd true v (id i)) = _
    rw [check_dbg_false hi, bind_error]
  · show (do check true (i < n) .badIndex; wr true v (id i) x) = _
    rw [check_dbg_false hi, bind_error]

theorem element_refused (o : Orient) {i j r c : Nat} (h : ¬ (i < r ∧ j < c)) : o.element true i r j c = .error .badIndex := by
  unfold Orient.element
  by_cases h1 : i < r
  · rw [check_true h1, bind_ok, check_dbg_false (fun h2 => h ⟨h1, h2⟩), bind_error]
  · rw [check_dbg_false h1, bind_error]

/-- Element access of a dense matrix is guarded when checks are on. -/
theorem dense_guarded (o : Orient) (r c : Nat) : Guarded (Dense.acc true o : Acc (Dense R) _ R) (fun p => p.1 < r ∧ p.2 < c) (Solve.DHolds true o r c) := by
  rintro m w ⟨_, h1, h2, _⟩ p hp
  subst h1 h2
  refine ⟨?_, fun x => ?_⟩
  · show m.get true o p.1 p.2 = _
    rw [Dense.get, element_refused o hp, bind_error]
  · show m.set true o p.1 p.2 x = _
    rw [Dense.set, element_refused o hp, bind_error]

/-- **C57** for a dense matrix: values by rows or by columns. -/
theorem C57_dense_values [Add R] [Sub R] (dbg : Bool) (o : Orient) (push ins : Dense R → Nat × Nat → R → M (Dense R)) (byRow : Bool) {r c : Nat} (hr : 0 < r) (hc : 0 < c) {items : List (MItem R)} {xss : List (List R)}
    (h : List.Forall₂ MItem.Means items (xss.map .vals)) {A : Dense R} {w : Nat × Nat → R} (hA : Solve.DHolds dbg o r c A w) :
    (xss.flatten.length ≤ r * c → ∃ A', massign (Target.ofAcc (Dense.acc dbg o) push ins) r c A (.traverse ⟨byRow, true⟩ :: items) = .ok A' ∧
      ∀ i j, i < r → j < c → A'.get dbg o i j = .ok (xss.flatten.getD (if byRow then i * c + j else j * r + i) (w (i, j)))) ∧
    (dbg = true → r * c < xss.flatten.length → massign (Target.ofAcc (Dense.acc dbg o) push ins) r c A (.traverse ⟨byRow, true⟩ :: items) = .error .badIndex) := by
  obtain ⟨c1, c2⟩ := C57_matrix_values (Solve.dense_lawful dbg o r c) push ins hr hc byRow h hA
  refine ⟨fun hn => ?_, ?_⟩
  · obtain ⟨A', w', e, h1, h2⟩ := c1 hn
    exact ⟨A', e, fun i j hi hj => by rw [h1.2.2.2 i j hi hj, h2 i j hi hj]⟩
  · rintro rfl hn
    exact c2 (dense_guarded o r c) hn

/-- **C57** refuted for a block behind a full line. After the `c` values of the first row the next value would go to the second row, but a matrix of one row and `c` columns, which fits exactly there,
is refused: `operator,` for matrices does not wrap first. -/
theorem C57_block_after_row_refuted [Add R] [Sub R] (o : Orient) (push ins : Dense R → Nat × Nat → R → M (Dense R)) {r c : Nat} (hr : 1 < r) (hc : 0 < c) (xs : List R) (hx : xs.length = c) (b : Nat → Nat → R)
    {A : Dense R} {w : Nat × Nat → R} (hA : Solve.DHolds true o r c A w) :
    massign (Target.ofAcc (Dense.acc true o) push ins) r c A [.vec xs.length (fun k => rd true xs k), .mat 1 c fun k l => .ok (b k l)] = .error .badIndex := by
  have hm : List.Forall₂ MItem.Means [.vec xs.length (fun k => rd true xs k), .mat 1 c fun k l => .ok (b k l)] [MSpec.vals xs, .block 1 c b] :=
    .cons (.vec xs fun k hk => rd_ok hk) (.cons (.mat b (by omega) hc fun _ _ _ _ => rfl) .nil)
  have hc0 : carry true c (0, 0) = (0, 0) := by rw [carry, if_neg]; simp; omega
  have hq : runEnd true c (0, 0) c = (0, c) := by
    rw [runEnd, if_neg (by omega)]
    simp only [hc0, runPos, if_true, Nat.zero_mul, Nat.zero_add, Nat.div_eq_of_lt (show c - 1 < c by omega), Nat.mod_eq_of_lt (show c - 1 < c by omega)]
    rw [Nat.sub_add_cancel hc]
  have he : mwrites r c .assign ⟨true, true⟩ 0 0 [MSpec.vals xs, .block 1 c b] =
      xs.mapIdx (fun k x => ⟨.assign, runPos true c (0, 0) k, x⟩) ++ (blockWrites true .assign 0 c 1 c b ++ []) := by
    simp only [mwrites, inLines, if_true, hx, hc0, hq]
  refine (C57_matrix (Solve.dense_lawful true o r c) push ins (by omega) hc hm hA ?_).2 (dense_guarded o r c) ?_
  · intro a ha
    rw [he, List.append_nil, List.mem_append] at ha
    rcases ha with ha | ha
    · obtain ⟨k, hk, rfl⟩ := mem_mapIdx.1 ha; exact .inl rfl
    · obtain ⟨k, l, _, _, rfl⟩ := mem_blockWrites.1 ha; exact .inl rfl
  · refine ⟨⟨.assign, (0 + 0, c + 0), b 0 0⟩, ?_, by simp⟩
    rw [he, List.append_nil, List.mem_append]
    exact .inr (mem_blockWrites.2 ⟨0, 0, by omega, hc, rfl⟩)

/-- **C57** refuted for an empty matrix between the commas: it has no elements to write, but its element (0, 0) is read, so the assignment fails. -/
theorem C57_empty_block_refuted (T : Target σ (Nat × Nat) R) (o : Orient) (r c : Nat) (s : σ) (B : Dense R) (hB : B.size1 = 0 ∨ B.size2 = 0) :
    massign T r c s [.mat B.size1 B.size2 fun k l => B.get true o k l] = .error .badIndex := by
  have : B.get true o 0 0 = .error .badIndex := by rw [Dense.get, element_refused o (by omega), bind_error]
  simp only [massign, List.foldlM_cons, List.foldlM_nil, MAsg.comma, MAsg.block, this, bind_error]

/-- **C57** refuted for blocks without wrapping: by rows, the second block should stand beside the first one (as a second value does); it is placed below and beside it, also for 1 × 1 blocks. -/
theorem C57_no_wrap_blocks_refuted (T : Target σ (Nat × Nat) R) {r c : Nat} (hr : 0 < r) (hc : 0 < c) (s : σ) (x y : R) :
    massign T r c s [.traverse ⟨true, false⟩, .val x, .val y] = perform T [⟨.assign, (0, 0), x⟩, ⟨.assign, (0, 1), y⟩] s ∧
    massign T r c s [.traverse ⟨true, false⟩, .mat 1 1 fun _ _ => .ok x, .mat 1 1 fun _ _ => .ok y] = perform T [⟨.assign, (0, 0), x⟩, ⟨.assign, (1, 1), y⟩] s := by
  have hc0 : carry true c (0, 0) = (0, 0) := by rw [carry, if_neg]; simp; omega
  constructor
  · rw [C57_matrix_writes T hr hc (specs := [.traverse ⟨true, false⟩, .vals [x], .vals [y]]) (.cons (.traverse _) (.cons (.val x) (.cons (.val y) .nil)))]
    simp only [mwrites, inLines, if_true, hc0]
    rfl
  · rw [C57_matrix_writes T hr hc (specs := [.traverse ⟨true, false⟩, .block 1 1 fun _ _ => x, .block 1 1 fun _ _ => y])
      (.cons (.traverse _) (.cons (.mat _ (by omega) (by omega) fun _ _ _ _ => rfl) (.cons (.mat _ (by omega) (by omega) fun _ _ _ _ => rfl) .nil)))]
    simp only [mwrites, inLines, if_true, hc0]
    rfl

/-- **C57** refuted for a move to the left of the first column: the assignment is not refused; the column index wraps around to a huge number, counts as the end of the row, and the value is written at
the start of the next row. -/
theorem C57_move_left_refuted (T : Target σ (Nat × Nat) R) {r c : Nat} (hr : 0 < r) (hc : 0 < c) (hbig : c < 2 ^ 64) (s : σ) (x : R) :
    massign T r c s [.move 0 (-1), .val x] = perform T [⟨.assign, (1, 0), x⟩] s := by
  rw [C57_matrix_writes T hr hc (specs := [.move 0 (-1), .vals [x]]) (.cons (.move _ _) (.cons (.val x) .nil))]
  have h1 : (((0 : Nat) : Int) + 0) % 2 ^ 64 = 0 := by decide
  have h2 : ((((0 : Nat) : Int) + -1) % 2 ^ 64).toNat = 2 ^ 64 - 1 := by decide
  have hcar : carry true c (0, 2 ^ 64 - 1) = (1, 0) := by rw [carry, if_pos]; exact ⟨rfl, by show c ≤ 2 ^ 64 - 1; omega⟩
  have hrun : runPos true c (1, 0) 0 = (1, 0) := by
    simp only [runPos, if_true, Nat.one_mul, Nat.add_zero, Nat.div_self hc, Nat.mod_self]
  simp only [mwrites, h1, h2, inLines, if_true, List.mapIdx_cons, List.mapIdx_nil, List.append_nil]
  rw [show Int.toNat 0 = 0 from rfl, hcar, hrun]

/-! ## Non-trivial scripts -/

/-- `v <<= 1, a, move (-1), 7, index_plus_assign (), move_to (0), 5` with `a = (2, 3)`. -/
example : vassign (Target.ofAcc (VT.view true 4 id : VT (List Int) Int).acc (fun s _ _ => .ok s) (fun s _ _ => .ok s)) [0, 0, 0, 9]
    [.val 1, .vec 2 (fun k => rd true [2, 3] k), .move (-1), .val 7, .fill .plus, .moveTo 0, .val 5] = .ok [6, 2, 7, 9] := by decide +kernel

/-- The documentation's `E <<= 1, 2, next_row (), 3, 4, next_column (), 5`. -/
example : (massign (Target.ofAcc (Dense.acc true .row : Acc (Dense Int) _ Int) (fun s _ _ => .ok s) (fun s _ _ => .ok s)) 2 4 ⟨2, 4, List.replicate 8 0⟩
    [.val 1, .val 2, .nextRow, .val 3, .val 4, .nextColumn, .val 5] >>= fun A => .ok A.data) = .ok [1, 2, 0, 5, 3, 4, 0, 0] := by decide +kernel

/-- A 3 × 3 matrix from four blocks, by columns of blocks. -/
example : (massign (Target.ofAcc (Dense.acc true .row : Acc (Dense Int) _ Int) (fun s _ _ => .ok s) (fun s _ _ => .ok s)) 3 3 ⟨3, 3, List.replicate 9 0⟩
    [.traverse ⟨false, true⟩, .mat 1 2 (fun _ l => .ok (l + 1)), .mat 2 2 (fun k l => .ok (10 * k + l)), .mat 1 1 (fun _ _ => .ok 7), .mat 2 1 (fun k _ => .ok (k + 8))] >>= fun A => .ok A.data) =
    .ok [1, 2, 7, 0, 1, 8, 10, 11, 9] := by decide +kernel

/-- The hypotheses of `C57_matrix_blocks` for this partition. -/
example : offset (fun a => a + 1) 2 = 3 ∧ offset (fun b => 2 - b) 2 = 3 ∧ (∀ a, a < 2 → 0 < a + 1) ∧ ∀ b, b < 2 → 0 < 2 - b := by
  refine ⟨by decide, by decide, by omega, by omega⟩

end Ublas.Assigner
