import Verif.Spec.TensorOut
import Verif.Props.TensorAlg
import Mathlib.Data.List.GetD
/-! # C94: printing a tensor -/
namespace Ublas.Tens
variable {R : Type}

theorem loop_walk {T : Type} (f : Nat → Nat × List T → M (Nat × List T)) (g : Nat → List T) (w p n : Nat) (out : List T)
    (h : ∀ k out, k < n → f k (p + k * w, out) = .ok (p + (k + 1) * w, out ++ g k)) :
    loop f n (p, out) = .ok (p + n * w, out ++ (List.range n).flatMap g) := by
  induction n with
  | zero => simp [loop]
  | succ n ih =>
    rw [loop, ih fun k out hk => h k out (by omega), bind_ok, h n _ (by omega), List.range_succ, List.flatMap_append]
    simp [List.append_assoc]

theorem loop_acc {T : Type} (f : Nat → List T → M (List T)) (g : Nat → List T) (n : Nat) (out : List T)
    (h : ∀ k out, k < n → f k out = .ok (out ++ g k)) :
    loop f n out = .ok (out ++ (List.range n).flatMap g) := by
  induction n with
  | zero => simp [loop]
  | succ n ih =>
    rw [loop, ih fun k out hk => h k out (by omega), bind_ok, h n _ (by omega), List.range_succ, List.flatMap_append]
    simp [List.append_assoc]

theorem joinTok_snoc (sep : Tok R) (l : List (List (Tok R))) (x : List (Tok R)) :
    joinTok sep (l ++ [x]) = l.flatMap (· ++ [sep]) ++ x := by
  induction l with
  | nil => simp [joinTok]
  | cons a l ih =>
    cases l with
    | nil => simp [joinTok]
    | cons b l =>
      rw [List.cons_append, List.cons_append, joinTok, ← List.cons_append, ih]
      simp [List.append_assoc]

theorem joinTok_range (sep : Tok R) (g : Nat → List (Tok R)) (n : Nat) (hn : 0 < n) :
    joinTok sep ((List.range n).map g) = (List.range (n - 1)).flatMap (fun k => g k ++ [sep]) ++ g (n - 1) := by
  obtain ⟨m, rfl⟩ : ∃ m, n = m + 1 := ⟨n - 1, by omega⟩
  rw [List.range_succ, List.map_append, List.map_cons, List.map_nil, joinTok_snoc, List.flatMap_map]
  rfl

theorem joinTok_rows (sep : Tok R) (g : Nat → List (Tok R)) (n : Nat) :
    (List.range n).flatMap (fun k => g k ++ if k < n - 1 then [sep] else []) = joinTok sep ((List.range n).map g) := by
  rcases Nat.eq_zero_or_pos n with h | h
  · subst h; rfl
  · rw [joinTok_range sep g n h]
    obtain ⟨m, rfl⟩ : ∃ m, n = m + 1 := ⟨n - 1, by omega⟩
    rw [List.range_succ, List.flatMap_append]
    simp only [Nat.add_sub_cancel, List.flatMap_cons, List.flatMap_nil, Nat.lt_irrefl, if_false, List.append_nil]
    congr 1
    apply List.flatMap_congr
    intro k hk
    rw [if_pos (List.mem_range.1 hk)]

theorem rd_getD0 {l : List Nat} {k : Nat} (h : k < l.length) : rd false l k = .ok (l.getD k 0) := by
  rw [rd_ok h, List.getD_eq_getElem _ _ h]

theorem take_two {l : List Nat} (h : 2 ≤ l.length) : l.take 2 = [l.getD 0 0, l.getD 1 0] := by
  match l, h with
  | a :: b :: t, _ => rfl

theorem take_succ_getD {l : List Nat} {k : Nat} (h : k < l.length) : l.take (k + 1) = l.take k ++ [l.getD k 0] := by
  rw [List.getD_eq_getElem _ _ h, List.take_append_getElem h]

theorem printMatrix_ok {d : List R} {w n : List Nat} {p : Nat} {g : List Nat → R} (out : List (Tok R)) (hn : 2 ≤ n.length) (hw : w.length = n.length)
    (hs : ∀ x ∈ n, x < 2 ^ 32) (h : ∀ i, Valid (n.take 2) i → d[p + dotW (w.take 2) i]? = some (g i)) :
    printMatrix d w n p out = .ok (out ++ rendered n 1 g) := by
  have e0 : n.getD 0 0 < 2 ^ 32 := by
    rw [List.getD_eq_getElem _ _ (by omega)]; exact hs _ (List.getElem_mem _)
  have e1 : n.getD 1 0 < 2 ^ 32 := by
    rw [List.getD_eq_getElem _ _ (by omega)]; exact hs _ (List.getElem_mem _)
  have hcell : ∀ i j, i < n.getD 0 0 → j < n.getD 1 0 → d[p + i * w.getD 0 0 + j * w.getD 1 0]? = some (g [i, j]) := by
    intro i j hi hj
    have := h [i, j] (by rw [take_two hn]; exact .cons hi (.cons hj .nil))
    rw [take_two (by omega)] at this
    simp only [dotW] at this
    rw [← this]; congr 1; omega
  unfold printMatrix
  simp only [rd_getD0 (show 0 < n.length by omega), rd_getD0 (show 1 < n.length by omega), rd_getD0 (show 0 < w.length by omega),
    rd_getD0 (show 1 < w.length by omega), bind_ok, loop32, if_pos e0, if_pos e1]
  have hinner : ∀ i, i < n.getD 0 0 → ∀ out : List (Tok R), loop (fun (_ : Nat) (st : Nat × List (Tok R)) => (do
      let x ← rd false d st.1
      .ok (st.1 + w.getD 1 0, st.2 ++ [Tok.elem x, Tok.text " "]) : M (Nat × List (Tok R)))) (n.getD 1 0) (p + i * w.getD 0 0, out) =
      .ok (p + i * w.getD 0 0 + n.getD 1 0 * w.getD 1 0, out ++ (List.range (n.getD 1 0)).flatMap fun j => cellTok (g [i, j])) := by
    intro i hi out
    refine loop_walk _ (fun j => cellTok (g [i, j])) _ _ _ _ ?_
    intro k out hk
    dsimp only
    rw [rd_eq_ok.2 (hcell i k hi hk), bind_ok]
    congr 2
    ring
  have houter := loop_walk (fun row (st : Nat × List (Tok R)) => (do
      let x ← loop (fun (_ : Nat) (st : Nat × List (Tok R)) => (do
          let x ← rd false d st.1
          .ok (st.1 + w.getD 1 0, st.2 ++ [Tok.elem x, Tok.text " "]) : M (Nat × List (Tok R)))) (n.getD 1 0) (st.1, st.2)
      .ok (st.1 + w.getD 0 0, if row < n.getD 0 0 - 1 then x.2 ++ [Tok.text "; \n"] else x.2) : M (Nat × List (Tok R))))
    (fun i => ((List.range (n.getD 1 0)).flatMap fun j => cellTok (g [i, j])) ++ if i < n.getD 0 0 - 1 then [Tok.text "; \n"] else [])
    (w.getD 0 0) p (n.getD 0 0) (out ++ [Tok.text "[ ... \n"]) (by
      intro k out hk
      dsimp only
      rw [hinner k hk, bind_ok]
      dsimp only
      congr 2
      · ring
      · split <;> simp [List.append_assoc])
  rw [houter, bind_ok]
  dsimp only
  rw [joinTok_rows, rendered]
  simp only [List.append_assoc]

theorem printRec_ok {d : List R} {w n : List Nat} (hw : w.length = n.length) (hs : ∀ x ∈ n, x < 2 ^ 32) (hp : ∀ x ∈ n, 0 < x) :
    ∀ (r p : Nat) (g : List Nat → R) (out : List (Tok R)), r + 2 ≤ n.length →
      (∀ i, Valid (n.take (r + 2)) i → d[p + dotW (w.take (r + 2)) i]? = some (g i)) →
      printRec d w n (r + 1) p out = .ok (out ++ rendered n (r + 1) g) := by
  intro r
  induction r with
  | zero => intro p g out hn h; rw [printRec]; exact printMatrix_ok out hn hw hs h
  | succ r ih =>
    intro p g out hn h
    have hnr : 0 < n.getD (r + 2) 0 := by
      rw [List.getD_eq_getElem _ _ (by omega)]; exact hp _ (List.getElem_mem _)
    have hsr : n.getD (r + 2) 0 < 2 ^ 32 := by
      rw [List.getD_eq_getElem _ _ (by omega)]; exact hs _ (List.getElem_mem _)
    have hslice : ∀ k out, k < n.getD (r + 2) 0 → printRec d w n (r + 1) (p + k * w.getD (r + 2) 0) out =
        .ok (out ++ rendered n (r + 1) fun i => g (i ++ [k])) := by
      intro k out hk
      refine ih _ _ out (by omega) ?_
      intro i hi
      have hi' : Valid (n.take (r + 1 + 2)) (i ++ [k]) := by
        rw [show r + 1 + 2 = (r + 2) + 1 by omega, take_succ_getD (by omega)]
        exact List.rel_append hi (.cons hk .nil)
      have := h _ hi'
      have hl : i.length = (w.take (r + 2)).length := by
        rw [hi.length]; simp only [List.length_take]; omega
      rw [show r + 1 + 2 = (r + 2) + 1 by omega, take_succ_getD (show r + 2 < w.length by omega), dotW_append hl] at this
      simp only [dotW] at this
      rw [← this]; congr 1; ring
    rw [printRec]
    simp only [rd_getD0 (show r + 2 < n.length by omega), rd_getD0 (show r + 2 < w.length by omega), bind_ok, if_neg (Nat.pos_iff_ne_zero.1 hnr), loop32,
      if_pos (show n.getD (r + 2) 0 - 1 < 2 ^ 32 by omega)]
    have hloop := loop_walk (fun (_ : Nat) (st : Nat × List (Tok R)) => (do
        let out ← printRec d w n (r + 1) st.1 st.2
        .ok (st.1 + w.getD (r + 2) 0, out ++ [Tok.text ",...\n"]) : M (Nat × List (Tok R))))
      (fun k => (rendered n (r + 1) fun i => g (i ++ [k])) ++ [Tok.text ",...\n"]) (w.getD (r + 2) 0) p (n.getD (r + 2) 0 - 1)
      (out ++ [Tok.text s!"cat({r + 3},...\n"]) (by
        intro k out hk
        dsimp only
        rw [hslice k out (by omega), bind_ok]
        congr 2
        · ring
        · rw [List.append_assoc])
    rw [hloop, bind_ok]
    dsimp only
    rw [hslice _ _ (by omega), bind_ok, rendered, joinTok_range _ _ _ hnr]
    simp only [List.append_assoc]

/-- **C94** (rank two and more).  Printing a tensor that is neither a scalar nor a vector sends exactly the text `rendered` to the stream, whatever the
storage layout; every element appears exactly once, in the reading order (last index slowest, then row by row). -/
theorem C94_print {L : Layout} {t : Tensor R} {e : List Nat} {f : List Nat → R} (h : Holds L t e f) (hs : ∀ x ∈ e, x < 2 ^ 32)
    (h1 : isScalar e = false) (h2 : isVector e = false) :
    print t = .ok (rendered e (e.length - 1) f) ∧ elemsOf (rendered e (e.length - 1) f) = (readOrder e (e.length - 1)).map f ∧
    (readOrder e (e.length - 1)).Nodup ∧ ∀ i, i ∈ readOrder e (e.length - 1) ↔ Valid e i := by
  have hl : 2 ≤ e.length := by
    match e, h.rank, h.positive, h2 with
    | [a], _, hp, h2 =>
      have := hp a (by simp)
      simp [isVector] at h2; omega
    | _ :: _ :: _, _, _, _ => simp
  obtain ⟨r, hr⟩ : ∃ r, e.length = r + 2 := ⟨e.length - 2, by omega⟩
  refine ⟨?_, ?_, ?_, ?_⟩
  · unfold print
    rw [h.extents, h1, h2]
    simp only [Bool.false_eq_true, if_false, if_neg (show ¬ e.length = 0 by omega)]
    have := printRec_ok (d := t.data) (w := t.strides) (n := e) (by rw [strides_length h]) hs h.positive r 0 f [] (by omega) (by
      intro i hi
      rw [← hr, List.take_length] at hi
      rw [← hr, ← strides_length h, List.take_length, Nat.zero_add]
      exact lay_of_holds h i hi)
    rw [hr, show r + 2 - 1 = r + 1 by omega, this]; rfl
  · clear h hs h1 h2 hl hr
    have happ : ∀ a b : List (Tok R), elemsOf (a ++ b) = elemsOf a ++ elemsOf b := by
      intro a b
      induction a with
      | nil => rfl
      | cons x a ih => cases x <;> simp only [List.cons_append, elemsOf, ih]
    have hjoin : ∀ (s : String) (l : List (List (Tok R))), elemsOf (joinTok (.text s) l) = l.flatMap elemsOf := by
      intro s l
      induction l with
      | nil => rfl
      | cons x l ih =>
        cases l with
        | nil => simp [joinTok]
        | cons y l => rw [joinTok, happ, happ, ih]; simp [elemsOf]
    have hflat : ∀ (l : List Nat) (g : Nat → R), elemsOf (l.flatMap fun j => cellTok (g j)) = l.map g := by
      intro l g
      induction l with
      | nil => rfl
      | cons x l ih => rw [List.flatMap_cons, happ, ih]; rfl
    have base : ∀ g : List Nat → R, elemsOf (rendered e 1 g) = (readOrder e 1).map g := by
      intro g
      rw [rendered, readOrder, happ, happ, hjoin]
      simp only [elemsOf, List.nil_append, List.append_nil, List.flatMap_map, hflat, List.map_flatMap, List.map_map]
      rfl
    have key : ∀ (r : Nat) (g : List Nat → R), elemsOf (rendered e r g) = (readOrder e r).map g := by
      intro r
      induction r with
      | zero => exact base
      | succ r ih =>
        cases r with
        | zero => exact base
        | succ r =>
          intro g
          rw [rendered, readOrder, happ, happ, hjoin]
          simp only [elemsOf, List.nil_append, List.append_nil, List.flatMap_map, ih, List.map_flatMap, List.map_map]
          rfl
    exact key _ _
  · clear h hs h1 h2 hl hr
    have base : (readOrder e 1).Nodup := by
      rw [readOrder, List.nodup_flatMap]
      refine ⟨fun i _ => List.nodup_range.map fun a b h => by simpa using h, List.nodup_range.imp_of_mem ?_⟩
      intro a b _ _ hab x hx hy
      simp only [List.mem_map] at hx hy
      obtain ⟨_, _, rfl⟩ := hx
      obtain ⟨_, _, h⟩ := hy
      simp at h; exact hab h.1.symm
    have key : ∀ r, (readOrder e r).Nodup := by
      intro r
      induction r with
      | zero => exact base
      | succ r ih =>
        cases r with
        | zero => exact base
        | succ r =>
          rw [readOrder, List.nodup_flatMap]
          refine ⟨fun d _ => ih.map fun a b h => by simpa using h, List.nodup_range.imp_of_mem ?_⟩
          intro a b _ _ hab x hx hy
          simp only [List.mem_map] at hx hy
          obtain ⟨_, _, rfl⟩ := hx
          obtain ⟨_, _, h⟩ := hy
          have := List.append_inj_right' h rfl
          simp at this; exact hab this.symm
    exact key _
  · have key : ∀ r, r + 2 ≤ e.length → ∀ i, i ∈ readOrder e (r + 1) ↔ Valid (e.take (r + 2)) i := by
      intro r
      induction r with
      | zero =>
        intro hr i
        rw [readOrder, take_two hr]
        simp only [List.mem_flatMap, List.mem_range, List.mem_map]
        constructor
        · rintro ⟨a, ha, b, hb, rfl⟩; exact .cons ha (.cons hb .nil)
        · intro hv
          match i, hv with
          | [a, b], .cons ha (.cons hb .nil) => exact ⟨a, ha, b, hb, rfl⟩
      | succ r ih =>
        intro hr i
        rw [readOrder, show r + 1 + 2 = (r + 2) + 1 by omega, take_succ_getD (by omega)]
        simp only [List.mem_flatMap, List.mem_range, List.mem_map, ih (by omega)]
        constructor
        · rintro ⟨d, hd, x, hx, rfl⟩; exact List.rel_append hx (.cons hd .nil)
        · intro hv
          obtain ⟨y, z, rfl, hy, hz⟩ := valid_append hv
          match z, hz with
          | [d], .cons hd .nil => exact ⟨d, hd, y, hy, rfl⟩
    intro i
    have := key r (by omega) i
    rw [hr, show r + 2 - 1 = r + 1 by omega, this, ← hr, List.take_length]

/-- **C94** (scalars).  A tensor whose extents are all one prints its element in brackets. -/
theorem C94_print_scalar {L : Layout} {t : Tensor R} {e : List Nat} {f : List Nat → R} (h : Holds L t e f) (h1 : isScalar e = true) :
    print t = .ok ([.text "["] ++ cellTok (f (e.map fun _ => 0)) ++ [.text "]"]) := by
  have hone : ∀ n ∈ e, n = 1 := by
    intro n hn
    simp only [isScalar, Bool.and_eq_true, List.all_eq_true] at h1
    simpa using h1.2 n hn
  have hv : Valid e (e.map fun _ => 0) := by
    clear h h1
    induction e with
    | nil => exact .nil
    | cons n e ih =>
      exact .cons (by rw [hone n (by simp)]; exact Nat.one_pos) (ih fun m hm => hone m (by simp [hm]))
  have h0 := h.elem _ hv
  have hz := ones_zero hv hone []
  have hp : pos L e (e.map fun _ => 0) = 0 := by cases L; exact hz.2.1; exact hz.2.2
  rw [hp] at h0
  unfold print
  rw [h.extents, if_pos h1, rd_eq_ok.2 h0]
  rfl

/-- **C94** (vectors).  A tensor of rank two or more shaped like a vector prints its elements in order of their index, separated by semicolons for a
column and by commas for a row. -/
theorem C94_print_vector {L : Layout} {t : Tensor R} {a b : Nat} {e : List Nat} {f : List Nat → R} (h : Holds L t (a :: b :: e) f)
    (hs : count (a :: b :: e) < 2 ^ 32) (h1 : isScalar (a :: b :: e) = false) (h2 : isVector (a :: b :: e) = true) :
    print t = .ok ([.text "["] ++ joinTok (.text (if b = 1 then "; " else ", "))
      ((List.range (max a b)).map fun k => cellTok (f (vecIndex (a :: b :: e) k))) ++ [.text "]"]) ∧
    ∀ i, Valid (a :: b :: e) i ↔ ∃ k, k < max a b ∧ i = vecIndex (a :: b :: e) k := by
  have hv := h2
  simp only [isVector, Bool.and_eq_true, Bool.or_eq_true, decide_eq_true_eq, beq_iff_eq, List.all_eq_true] at hv
  obtain ⟨⟨_, h3⟩, h4⟩ := hv
  have pa : 0 < a := h.positive a (by simp)
  have pb : 0 < b := h.positive b (by simp)
  have hcount1 : count e = 1 := by
    unfold count
    exact List.prod_eq_one h4
  have hcnt : count (a :: b :: e) = max a b := by
    have : count (a :: b :: e) = a * (b * count e) := by simp [count]
    rw [this, hcount1]
    rcases h3 with h3 | h3 <;> subst h3
    · rw [Nat.one_mul, Nat.mul_one]; omega
    · rw [Nat.mul_one]; omega
  have hz : Valid e (e.map fun _ => 0) := by
    clear h hs h1 h2 hcount1 hcnt
    induction e with
    | nil => exact .nil
    | cons n e ih =>
      exact .cons (by rw [h4 n (by simp)]; exact Nat.one_pos) (ih fun m hm => h4 m (by simp [hm]))
  have hval : ∀ k, k < max a b → Valid (a :: b :: e) (vecIndex (a :: b :: e) k) := by
    intro k hk
    simp only [vecIndex]
    by_cases ha : a = 1
    · rw [if_pos ha]; subst ha
      exact .cons Nat.one_pos (.cons (by omega) hz)
    · rw [if_neg ha]
      exact .cons (by omega) (.cons pb hz)
  have hpos : ∀ k, k < max a b → pos L (a :: b :: e) (vecIndex (a :: b :: e) k) = k := by
    intro k hk
    rw [← ones_vector h2 (hval k hk) L]
    have hdz : ∀ w, dotW w (e.map fun _ => 0) = 0 := fun w => (ones_zero hz h4 w).1
    unfold vecIndex
    simp only [List.length_cons, List.replicate_succ]
    split <;> simp only [dotW, hdz, Nat.zero_mul, Nat.mul_one, Nat.zero_add, Nat.add_zero]
  have hget : ∀ k, k < max a b → t.data[k]? = some (f (vecIndex (a :: b :: e) k)) := by
    intro k hk
    have := h.elem _ (hval k hk)
    rwa [hpos k hk] at this
  refine ⟨?_, ?_⟩
  · have hsz : t.data.length = max a b := by rw [h.size, hcnt]
    unfold print
    rw [h.extents, h1, h2]
    simp only [Bool.false_eq_true, if_false, if_true, hsz, if_neg (show ¬ max a b = 0 by omega), loop32, if_pos (show max a b - 1 < 2 ^ 32 by omega)]
    have hsep : (if a > b then ";" else ",") ++ " " = (if b = 1 then "; " else ", " : String) := by
      by_cases hb : b = 1
      · by_cases ha : a = 1
        · exfalso
          subst ha; subst hb
          simp only [isScalar, List.length_cons, List.all_cons, beq_self_eq_true, Bool.true_and] at h1
          have : (e.all fun a => a == 1) = true := by simpa [List.all_eq_true] using h4
          rw [this] at h1
          simp at h1
        · rw [if_pos (by omega), if_pos hb]; rfl
      · rw [if_neg (by omega), if_neg hb]; rfl
    rw [hsep]
    have hloop := loop_acc (fun i out => (do
        let x ← rd false t.data i
        .ok (out ++ [Tok.elem x, Tok.text " ", Tok.text (if b = 1 then "; " else ", ")]) : M (List (Tok R))))
      (fun k => cellTok (f (vecIndex (a :: b :: e) k)) ++ [Tok.text (if b = 1 then "; " else ", ")]) (max a b - 1) [Tok.text "["] (by
        intro k out hk
        rw [rd_eq_ok.2 (hget k (by omega)), bind_ok]
        rfl)
    rw [hloop, bind_ok, rd_eq_ok.2 (hget (max a b - 1) (by omega)), bind_ok, joinTok_range _ _ _ (by omega)]
    simp only [List.append_assoc]
    rfl
  · intro i
    constructor
    · intro hi
      have hlt := pos_lt (L := L) hi
      rw [hcnt] at hlt
      exact ⟨_, hlt, pos_inj hi (hval _ hlt) (by rw [hpos _ hlt])⟩
    · rintro ⟨k, hk, rfl⟩; exact hval k hk

/-- A 2 x 2 x 2 tensor in last-order layout meets the hypotheses of `C94_print`: its two slices are printed row by row. -/
example : isScalar [2, 2, 2] = false ∧ isVector [2, 2, 2] = false ∧ (∀ x ∈ [2, 2, 2], x < 2 ^ 32) ∧
    (do let t ← createFrom .last [2, 2, 2] [1, 2, 3, 4, 5, 6, 7, 8]; print t : M (List (Tok Int))).map elemsOf = .ok [1, 3, 5, 7, 2, 4, 6, 8] := by decide

/-- A column and a row meet the hypotheses of `C94_print_vector`. -/
example : (do let t ← createFrom .first [3, 1] [1, 2, 3]; print t : M (List (Tok Int))) =
    .ok [.text "[", .elem 1, .text " ", .text "; ", .elem 2, .text " ", .text "; ", .elem 3, .text " ", .text "]"] ∧
    isVector [3, 1] = true ∧ isScalar [3, 1] = false := by decide

/-- **C94** refuted for rank one: a tensor with a single extent of two or more cannot be printed (std::out_of_range from `n.at (1)`). -/
theorem C94_rank1_refuted {L : Layout} {t : Tensor R} {n : Nat} {f : List Nat → R} (h : Holds L t [n] f) (hn : 2 ≤ n) : print t = .error .stdException := by
  unfold print
  rw [h.extents, if_neg (by simp [isScalar]; omega), if_pos (by simp [isVector]; omega)]

/-- **C94** refuted for a default-constructed tensor: printing it walks outside its (empty) extents. -/
theorem C94_default_refuted : print (⟨[], [], []⟩ : Tensor R) = .error .ub := rfl

end Ublas.Tens
