import Verif.Lemmas.IOSym
import Verif.Props.Solve
import Verif.Props.Symmetric
import Mathlib.Tactic.Tauto
/-! # C58: reading and writing text -/
namespace Ublas.IO
variable {σ R : Type}

/-! ## Vectors -/

theorem vec_chain {dbg : Bool} : ∀ (k i : Nat) (x : List R) (tss : List (List (Tok R))) (x' : List R), i + k = x.length →
    (Chain (fun i x ts x' => ∃ a, ts = [.elem a] ∧ wr dbg x i a = .ok x') k i x tss x' ↔ ∃ xs : List R, xs.length = k ∧ tss = xs.map (fun a => [Tok.elem a]) ∧ x' = x.take i ++ xs)
  | 0, i, x, tss, x', hi => by
    simp only [Chain, List.length_eq_zero_iff]
    constructor
    · rintro ⟨rfl, rfl⟩
      exact ⟨[], rfl, rfl, by simp [List.take_of_length_le (show x'.length ≤ i by omega)]⟩
    · rintro ⟨xs, rfl, rfl, rfl⟩
      exact ⟨rfl, by simp [List.take_of_length_le (show x.length ≤ i by omega)]⟩
  | k + 1, i, x, tss, x', hi => by
    have hw : ∀ a, wr dbg x i a = .ok (x.set i a) := fun a => by simp [wr, show i < x.length by omega]
    have ht : ∀ a, (x.set i a).take (i + 1) = x.take i ++ [a] := fun a => by
      rw [List.take_set, List.take_add_one, List.getElem?_eq_getElem (by omega)]
      simp only [Option.toList_some]
      rw [List.set_append_right _ _ (by simp)]
      simp [List.length_take, Nat.min_eq_left (show i ≤ x.length by omega)]
    constructor
    · rintro ⟨ts, r, y, rfl, ⟨a, rfl, e⟩, h⟩
      rw [hw] at e
      obtain rfl := Except.ok.inj e
      obtain ⟨xs, h1, rfl, rfl⟩ := (vec_chain k (i + 1) (x.set i a) r x' (by simp; omega)).1 h
      exact ⟨a :: xs, by simp [h1], rfl, by rw [ht]; simp⟩
    · rintro ⟨xs, h1, rfl, rfl⟩
      cases xs with
      | nil => simp at h1
      | cons a xs =>
        refine ⟨[.elem a], xs.map fun a => [.elem a], x.set i a, rfl, ⟨a, rfl, hw a⟩, ?_⟩
        rw [vec_chain k (i + 1) (x.set i a) _ _ (by simp; omega)]
        exact ⟨xs, by simpa using h1, rfl, by rw [ht]; simp⟩

theorem vec_body (dbg : Bool) (E : ElemIO R) (n : Nat) (junk : R) :
    (∀ (xs : List R) extra b b', xs.length = n → (extra = true → xs ≠ []) → Scan E (list (xs.map fun x => [.elem x]) extra) b b' →
      readBody n (readInto E fun i a (x : List R) => wr dbg x i a) (List.replicate n junk) ⟨b, true⟩ = .ok (xs, ⟨b', true⟩)) ∧
    (∀ s, ∃ x' s', readBody n (readInto E fun i a (x : List R) => wr dbg x i a) (List.replicate n junk) s = .ok (x', s') ∧
      (s'.ok = true → s.ok = true ∧ x'.length = n ∧ ∃ extra, (extra = true → x' ≠ []) ∧ Scan E (list (x'.map fun x => [.elem x]) extra) s.buf s'.buf)) := by
  have hr : Reads E n (fun x : List R => x.length = n) (fun i x ts x' => ∃ a, ts = [.elem a] ∧ wr dbg x i a = .ok x') (readInto E fun i a (x : List R) => wr dbg x i a) :=
    readInto_reads fun i a x hi hx => ⟨x.set i a, by simp [wr, hx, hi], by simpa using hx⟩
  obtain ⟨B1, B2⟩ := body_reads (items_reads hr n 0 (by omega))
  refine ⟨?_, ?_⟩
  · intro xs extra b b' hn he hs
    refine B1 _ (xs.map fun x => [.elem x]) extra xs b b' (by simp) ?_ (fun h => by simpa using he h) hs
    rw [vec_chain n 0 (List.replicate n junk) _ _ (by simp)]
    exact ⟨xs, hn, rfl, by simp⟩
  · intro s
    obtain ⟨x', s', e, hx, h⟩ := B2 (List.replicate n junk) s (by simp)
    refine ⟨x', s', e, fun hk => ⟨(h hk).1, hx, ?_⟩⟩
    obtain ⟨-, tss, extra, hC, he, hs⟩ := h hk
    rw [vec_chain n 0 (List.replicate n junk) _ _ (by simp)] at hC
    obtain ⟨xs, h1, rfl, rfl⟩ := hC
    exact ⟨extra, fun h => by simpa using he h, hs⟩

/-- **C58** (vectors, what is accepted).  Reading a vector succeeds exactly on `[n](x1,…,xn)`, with white space between the tokens and possibly a comma after the last element; the vector read has
these elements. -/
theorem C58_vector_accepts (dbg : Bool) (E : ElemIO R) (cap : Nat) (junk : R) (v : List R) (b rest : List Char) (xs : List R) :
    readVector dbg E cap junk v ⟨b, true⟩ = .ok (xs, ⟨rest, true⟩) ↔ xs.length ≤ cap ∧ ∃ extra, (extra = true → xs ≠ []) ∧ Scan E (vectorText xs extra) b rest := by
  constructor
  · intro h
    unfold readVector at h
    simp only at h
    rcases differs_cases '[' ⟨b, true⟩ with ⟨d1, d2⟩ | ⟨d1, d2, d3, d4⟩ | ⟨d1, d2, -⟩
    · rw [IS.eta_failed d2] at h
      simp [d1, IS.extract, differs_failed] at h
    · rw [IS.eta_ok d3] at h
      simp only [d2, Bool.false_eq_true, if_false] at h
      rcases extract_cases readSize ⟨(IS.differs '[' ⟨b, true⟩).2.buf, true⟩ with ⟨e1, e2⟩ | ⟨n, -, e1, e2, e3⟩
      · rw [e1, IS.eta_failed e2] at h
        simp [differs_failed] at h
      · rw [e1] at h
        rcases differs_cases ']' (IS.extract readSize ⟨(IS.differs '[' ⟨b, true⟩).2.buf, true⟩).2 with ⟨g1, g2⟩ | ⟨-, g2, g3, g4⟩ | ⟨-, g2, -⟩
        · simp only [g1, g2, Bool.false_eq_true, if_false, Except.ok.injEq, Prod.mk.injEq] at h
          obtain ⟨-, h⟩ := h
          rw [h] at g2; simp at g2
        · simp only [g2, g3, Bool.false_eq_true, if_false, if_true] at h
          split at h
          · simp at h
          · rename_i hc
            obtain ⟨x', s', eb, hb⟩ := (vec_body dbg E n junk).2 (IS.differs ']' (IS.extract readSize ⟨(IS.differs '[' ⟨b, true⟩).2.buf, true⟩).2).2
            rw [eb, bind_ok] at h
            simp only at h
            split at h
            · rename_i hk
              obtain ⟨-, h1, extra, h2, h3⟩ := hb hk
              obtain ⟨rfl, rfl⟩ := Prod.mk.injEq .. ▸ Except.ok.inj h
              exact ⟨by omega, extra, h2, _, d4, _, h1 ▸ e3, _, g4, h3⟩
            · rename_i hk
              obtain ⟨-, rfl⟩ := Prod.mk.injEq .. ▸ Except.ok.inj h
              simp at hk
        · simp [g2, IS.fail] at h
    · simp [d2, IS.fail] at h
  · rintro ⟨hc, extra, he, b1, h1, b2, h2, b3, h3, h4⟩
    simp only [readVector, differs_eq h1, Bool.false_eq_true, if_false, extract_ok h2, differs_eq h3, if_true]
    rw [if_neg (by omega), (vec_body dbg E _ junk).1 xs extra b3 rest rfl he h4]
    rfl

/-- **C58** (vectors, failure).  Whatever the stream holds, reading never goes wrong except that a size that cannot be allocated throws; if the stream has failed afterwards, the vector is
unchanged. -/
theorem C58_vector_fail_unchanged (dbg : Bool) (E : ElemIO R) (cap : Nat) (junk : R) (v : List R) (s : IS) :
    (∃ n b', cap < n ∧ s.ok = true ∧ Scan E [.ch '[', .size n, .ch ']'] s.buf b' ∧ readVector dbg E cap junk v s = .error .stdException) ∨
    ∃ w s', readVector dbg E cap junk v s = .ok (w, s') ∧ (s'.ok = false → w = v) ∧ (s'.ok = true → s.ok = true) := by
  unfold readVector
  simp only
  rcases differs_cases '[' s with ⟨d1, d2⟩ | ⟨d1, d2, d3, d4⟩ | ⟨d1, d2, -⟩
  · right
    rw [IS.eta_failed d2]
    exact ⟨v, ⟨(IS.differs '[' s).2.buf, false⟩, by simp [d1, IS.extract, differs_failed], by simp, by simp⟩
  · rw [IS.eta_ok d3]
    simp only [d2, Bool.false_eq_true, if_false]
    rcases extract_cases readSize ⟨(IS.differs '[' s).2.buf, true⟩ with ⟨e1, e2⟩ | ⟨n, -, e1, e2, e3⟩
    · right
      rw [e1, IS.eta_failed e2]
      exact ⟨v, ⟨(IS.extract readSize ⟨(IS.differs '[' s).2.buf, true⟩).2.buf, false⟩, by simp [differs_failed], by simp, by simp⟩
    · rw [e1]
      rcases differs_cases ']' (IS.extract readSize ⟨(IS.differs '[' s).2.buf, true⟩).2 with ⟨g1, g2⟩ | ⟨-, g2, g3, g4⟩ | ⟨-, g2, -⟩
      · right
        exact ⟨v, _, by simp only [g1, g2, Bool.false_eq_true, if_false]; rfl, by simp, by simp [g2]⟩
      · simp only [g2, g3, Bool.false_eq_true, if_false, if_true]
        by_cases hc : cap < n
        · exact Or.inl ⟨n, _, hc, d1, ⟨_, d4, _, e3, _, g4, rfl⟩, by rw [if_pos hc]⟩
        · right
          rw [if_neg hc]
          obtain ⟨x', s', eb, hb⟩ := (vec_body dbg E n junk).2 (IS.differs ']' (IS.extract readSize ⟨(IS.differs '[' s).2.buf, true⟩).2).2
          rw [eb, bind_ok]
          by_cases hk : s'.ok = true
          · exact ⟨x', s', by simp [hk], by simp [hk], fun _ => d1⟩
          · exact ⟨v, s', by simp [hk], by simp, fun h => absurd h hk⟩
      · right
        exact ⟨v, _, by simp only [g2, Bool.false_eq_true, if_false, if_true]; rfl, by simp, by simp [IS.fail]⟩
  · right
    exact ⟨v, (IS.differs '[' s).2.fail, by simp [d2], by simp, by simp [IS.fail]⟩

/-! ## Matrices -/

/-- Reading a matrix, for a way of reading its elements. -/
def readWith (sq : Bool) (make : Nat → Nat → M σ) (item : Nat → Nat → σ → IS → M (Bool × σ × IS)) (m : σ) (s : IS) : M (σ × IS) :=
  match readSizes sq s with
  | (none, s) => .ok (m, s)
  | (some (r, c), s) => do
    let x ← make r c
    let q ← readBody r (item c) x s
    if q.2.ok then .ok q else .ok (m, q.2)

section
variable {E : ElemIO R} {sq : Bool} {make : Nat → Nat → M σ} {item : Nat → Nat → σ → IS → M (Bool × σ × IS)} {Rep : Nat → Nat → σ → (Nat × Nat → R) → Prop}
  {Good : (Nat × Nat → R) → Prop} {Te : Nat → Nat → σ → R → σ → Prop}

theorem readWith_accept {r c : Nat} (S : ElemSpec r c (Rep r c) Good Te) (hL : Reads E r (fun x => ∃ w, Rep r c x w) (Trow Te c) (item c)) (hq : sq = true → r = c)
    {x : σ} {w0 : Nat × Nat → R} (hm : make r c = .ok x) (hx : Rep r c x w0) {f : Nat × Nat → R} (hf : Good f) {extras : List Bool} {extra : Bool} (he : extras.length = r) (hc : ∀ e ∈ extras, e = true → c ≠ 0)
    (hr : extra = true → r ≠ 0) {b rest : List Char} (hs : Scan E (matrixText c (rowsOf r c f) extras extra) b rest) (m : σ) :
    ∃ x' w', readWith sq make item m ⟨b, true⟩ = .ok (x', ⟨rest, true⟩) ∧ Rep r c x' w' ∧ ∀ i j, i < r → j < c → w' (i, j) = f (i, j) := by
  unfold matrixText at hs
  rw [scan_append] at hs
  obtain ⟨b1, h1, h2⟩ := hs
  have hlen : (rowsOf r c f).length = r := by simp [rowsOf]
  rw [hlen] at h1
  rw [← rowsToks_rowsOf] at h2
  obtain ⟨x', w', a1, a2, a3⟩ := rows_exist S hf r 0 extras x w0 (by omega) hx he hc (by simp)
  refine ⟨x', w', ?_, a2, fun i j hi hj => a3 (i, j) (by simpa using hi) hj⟩
  have hb := (body_reads (items_reads hL r 0 (by omega))).1 x (rowsToks f c 0 r extras) extra x' b1 rest ⟨w0, hx⟩ a1 (fun h h0 => hr h ((chain_ne a1).1 h0)) h2
  simp only [readWith, readSizes_accept h1 hq, hm, bind_ok, hb, if_true]

theorem readWith_only (S : ∀ r c, ElemSpec r c (Rep r c) Good Te) (hL : ∀ r c, (sq = true → r = c) → Reads E r (fun x => ∃ w, Rep r c x w) (Trow Te c) (item c))
    (m : σ) (s : IS) (hm : ∀ r c x b', Scan E [.ch '[', .size r, .ch ',', .size c, .ch ']'] s.buf b' → (sq = true → r = c) → make r c = .ok x → ∃ w, Rep r c x w) :
    (∃ r c e b', s.ok = true ∧ Scan E [.ch '[', .size r, .ch ',', .size c, .ch ']'] s.buf b' ∧ make r c = .error e ∧ readWith sq make item m s = .error e) ∨
    ∃ x' s', readWith sq make item m s = .ok (x', s') ∧ (s'.ok = false → x' = m) ∧
      (s'.ok = true → s.ok = true ∧ ∃ r c w' extras extra, (sq = true → r = c) ∧ Rep r c x' w' ∧ extras.length = r ∧ (∀ e ∈ extras, e = true → c ≠ 0) ∧ (extra = true → r ≠ 0) ∧
        Scan E (matrixText c (rowsOf r c w') extras extra) s.buf s'.buf) := by
  unfold readWith
  rcases readSizes_only E sq s with ⟨h1, h2⟩ | ⟨r, c, h1, h2, h3, h4, h5⟩
  · right
    rw [show readSizes sq s = (none, (readSizes sq s).2) from by rw [← h1]]
    exact ⟨m, (readSizes sq s).2, rfl, by simp, by simp [h2]⟩
  · rw [show readSizes sq s = (some (r, c), (readSizes sq s).2) from by rw [← h1]]
    set s1 := (readSizes sq s).2
    simp only
    cases hmk : make r c with
    | error e => exact Or.inl ⟨r, c, e, _, h3, h5, hmk, rfl⟩
    | ok x =>
      right
      obtain ⟨w0, hx⟩ := hm r c x _ h5 h4 hmk
      obtain ⟨x', s', eb, -, hb⟩ := (body_reads (items_reads (hL r c h4) r 0 (by omega))).2 x s1 ⟨w0, hx⟩
      simp only [bind_ok, eb]
      by_cases hk : s'.ok = true
      · refine ⟨x', s', by simp [hk], by simp [hk], fun _ => ⟨h3, ?_⟩⟩
        obtain ⟨-, tss, extra, hC, he, hs⟩ := hb hk
        have hne := chain_ne hC
        obtain ⟨w', extras, a1, a2, a3, rfl, -⟩ := rows_sound (S r c) r 0 x tss x' w0 (by omega) hx hC
        refine ⟨r, c, w', extras, extra, h4, a1, a2, a3, fun h h0 => he h (hne.2 h0), ?_⟩
        unfold matrixText
        rw [scan_append, ← rowsToks_rowsOf]
        exact ⟨s1.buf, by simpa [rowsOf] using h5, hs⟩
      · exact ⟨m, s', by simp [hk], by simp, fun h => absurd h hk⟩
end

/-! ### Dense matrices -/

theorem dense_elemSpec (dbg : Bool) (o : Orient) (r c : Nat) :
    ElemSpec r c (Solve.DHolds (R := R) dbg o r c) (fun _ => True) fun i j x a x' => x.set dbg o i j a = .ok x' := by
  refine ⟨?_, ?_⟩
  · intro x w i j a x' hx hi hj h
    obtain ⟨y, e, hy⟩ := (Solve.dense_lawful dbg o r c).set x w hx (i, j) ⟨hi, hj⟩ a
    simp only [Dense.acc] at e
    rw [h] at e
    obtain rfl := Except.ok.inj e
    refine ⟨_, hy, by simp, fun p hp => ?_⟩
    rw [Function.update_of_ne]
    rintro rfl
    rcases hp with hp | ⟨-, hp⟩ <;> simp at hp
  · intro f x w i j _ hx hi hj _
    obtain ⟨y, e, hy⟩ := (Solve.dense_lawful dbg o r c).set x w hx (i, j) ⟨hi, hj⟩ (f (i, j))
    exact ⟨y, e⟩

theorem dense_row_reads (dbg : Bool) (E : ElemIO R) (o : Orient) (r c : Nat) :
    Reads E r (fun x => ∃ w, Solve.DHolds (R := R) dbg o r c x w) (Trow (fun i j x a x' => x.set dbg o i j a = .ok x') c) (readRow E c fun i j a (x : Dense R) => x.set dbg o i j a) :=
  list_reads fun i hi => items_reads (readInto_reads fun j a x hj hx => by
    obtain ⟨w, hx⟩ := hx
    obtain ⟨y, e, hy⟩ := (Solve.dense_lawful dbg o r c).set x w hx (i, j) ⟨hi, hj⟩ a
    exact ⟨y, e, _, hy⟩) c 0 (by omega)

theorem mk'_holds (dbg : Bool) (junk : Nat → R) (o : Orient) (r c : Nat) : ∃ w, Solve.DHolds dbg o r c (Dense.mk' junk o r c) w := by
  have hwf : (Dense.mk' junk o r c).WF := by cases o <;> simp [Dense.WF, Dense.mk', Orient.storageSize]
  refine ⟨fun p => ((Dense.mk' junk o r c).data[o.elementRaw p.1 r p.2 c]?).getD (junk 0), hwf, rfl, rfl, fun i j hi hj => ?_⟩
  obtain ⟨h, e⟩ := Dense.get_eq dbg o (Dense.mk' junk o r c) hwf (i := i) (j := j) hi hj
  rw [e]
  have e2 : (Dense.mk' junk o r c).data[o.elementRaw i r j c]? = some _ := List.getElem?_eq_getElem h
  simp only [e2, Option.getD_some]

theorem makeDense_eq (dbg : Bool) {cap : Nat} (junk : Nat → R) (o : Orient) {r c : Nat} (h64 : r * c < 2 ^ 64) :
    makeDense dbg cap junk o r c = if cap < r * c then .error .stdException else .ok (Dense.mk' junk o r c) := by
  have g1 : c = 0 ∨ r ≤ (2 ^ 64 - 1) / c := by
    rcases Nat.eq_zero_or_pos c with h0 | h0
    · exact Or.inl h0
    · exact Or.inr ((Nat.le_div_iff_mul_le h0).2 (by omega))
  have g2 : r = 0 ∨ c ≤ (2 ^ 64 - 1) / r := by
    rcases Nat.eq_zero_or_pos r with h0 | h0
    · exact Or.inl h0
    · exact Or.inr ((Nat.le_div_iff_mul_le h0).2 (by rw [Nat.mul_comm] ; omega))
  unfold makeDense
  cases o <;> simp only [check_true g1, check_true g2, bind_ok, Nat.mod_eq_of_lt h64] <;> simp [Dense.mk', Orient.storageSize]

/-- In debug mode the constructor checks that the number of elements fits. -/
theorem makeDense_checked {cap : Nat} (junk : Nat → R) (o : Orient) {r c : Nat} (h64 : 2 ^ 64 ≤ r * c) : makeDense true cap junk o r c = .error .badSize := by
  have g1 : ¬ (c = 0 ∨ r ≤ (2 ^ 64 - 1) / c) := by
    rintro (rfl | h)
    · simp at h64
    · have := Nat.mul_le_mul_right c h
      have := Nat.div_mul_le_self (2 ^ 64 - 1) c
      omega
  have g2 : ¬ (r = 0 ∨ c ≤ (2 ^ 64 - 1) / r) := by
    rintro (rfl | h)
    · simp at h64
    · have := Nat.mul_le_mul_left r h
      have := Nat.mul_div_le (2 ^ 64 - 1) r
      omega
  unfold makeDense
  cases o <;> simp only [check_dbg_false g1, check_dbg_false g2, bind_error]

/-- **C58** (dense matrices, what is accepted).  `[r,c]((x11,…),…,(xr1,…))`, with white space between the tokens and possibly a comma after the last element of a row and after the last row, is
read as the `r` x `c` matrix of these elements. -/
theorem C58_matrix_accepts (dbg : Bool) (E : ElemIO R) (cap : Nat) (junk : Nat → R) (o : Orient) (m : Dense R) (r c : Nat) (hcap : r * c ≤ cap) (h64 : r * c < 2 ^ 64) (f : Nat × Nat → R)
    (extras : List Bool) (extra : Bool) (he : extras.length = r) (hc : ∀ e ∈ extras, e = true → c ≠ 0) (hr : extra = true → r ≠ 0) (b rest : List Char)
    (hs : Scan E (matrixText c (rowsOf r c f) extras extra) b rest) :
    ∃ x, readDense dbg E cap junk o m ⟨b, true⟩ = .ok (x, ⟨rest, true⟩) ∧ Solve.DHolds dbg o r c x f := by
  obtain ⟨w0, h0⟩ := mk'_holds dbg junk o r c
  obtain ⟨x, w, h1, h2, h3⟩ := readWith_accept (sq := false) (make := makeDense dbg cap junk o) (item := fun c => readRow E c fun i j a (x : Dense R) => x.set dbg o i j a) (dense_elemSpec dbg o r c)
    (dense_row_reads dbg E o r c) (by simp) (by rw [makeDense_eq dbg junk o h64, if_neg (by omega)]) h0 (f := f) trivial he hc hr hs m
  exact ⟨x, h1, h2.1, h2.2.1, h2.2.2.1, fun i j hi hj => by rw [h2.2.2.2 i j hi hj, h3 i j hi hj]⟩

/-- **C58** (dense matrices, everything else).  Whatever the stream holds, if the announced number of elements fits in `size_t` reading never goes wrong except that a size that cannot be allocated
throws; if the stream has failed afterwards the matrix is unchanged, and otherwise the text read was one of the above and the matrix has its elements. -/
theorem C58_matrix_only_partial (dbg : Bool) (E : ElemIO R) (cap : Nat) (junk : Nat → R) (o : Orient) (m : Dense R) (s : IS)
    (h64 : dbg = true ∨ ∀ r c b', Scan E [.ch '[', .size r, .ch ',', .size c, .ch ']'] s.buf b' → r * c < 2 ^ 64) :
    (∃ r c e b', s.ok = true ∧ Scan E [.ch '[', .size r, .ch ',', .size c, .ch ']'] s.buf b' ∧ ((e = .stdException ∧ cap < r * c) ∨ (e = .badSize ∧ 2 ^ 64 ≤ r * c)) ∧
      readDense dbg E cap junk o m s = .error e) ∨
    ∃ x s', readDense dbg E cap junk o m s = .ok (x, s') ∧ (s'.ok = false → x = m) ∧
      (s'.ok = true → s.ok = true ∧ ∃ r c f extras extra, Solve.DHolds dbg o r c x f ∧ extras.length = r ∧ (∀ e ∈ extras, e = true → c ≠ 0) ∧ (extra = true → r ≠ 0) ∧
        Scan E (matrixText c (rowsOf r c f) extras extra) s.buf s'.buf) := by
  have key : ∀ r c b', Scan E [.ch '[', .size r, .ch ',', .size c, .ch ']'] s.buf b' → r * c < 2 ^ 64 ∨ (makeDense dbg cap junk o r c = .error .badSize ∧ 2 ^ 64 ≤ r * c) := by
    intro r c b' hs
    by_cases h : r * c < 2 ^ 64
    · exact Or.inl h
    · rcases h64 with rfl | h64
      · exact Or.inr ⟨makeDense_checked junk o (by omega), by omega⟩
      · exact absurd (h64 r c b' hs) h
  rcases readWith_only (sq := false) (make := makeDense dbg cap junk o) (item := fun c => readRow E c fun i j a (x : Dense R) => x.set dbg o i j a) (fun r c => dense_elemSpec dbg o r c)
    (fun r c _ => dense_row_reads dbg E o r c) m s (by
      intro r c x b' hs _ hx
      rcases key r c b' hs with h | ⟨h, -⟩
      · rw [makeDense_eq dbg junk o h] at hx
        split at hx
        · simp at hx
        · obtain rfl := Except.ok.inj hx
          exact mk'_holds dbg junk o r c
      · rw [h] at hx; simp at hx) with ⟨r, c, e, b', h1, h2, h3, h4⟩ | ⟨x', s', h1, h2, h3⟩
  · refine Or.inl ⟨r, c, e, b', h1, h2, ?_, h4⟩
    rcases key r c b' h2 with h | ⟨h, h'⟩
    · rw [makeDense_eq dbg junk o h] at h3
      split at h3
      · obtain rfl := Except.error.inj h3
        exact Or.inl ⟨rfl, by assumption⟩
      · simp at h3
    · rw [h] at h3
      obtain rfl := Except.error.inj h3
      exact Or.inr ⟨rfl, h'⟩
  · refine Or.inr ⟨x', s', h1, h2, fun hk => ⟨(h3 hk).1, ?_⟩⟩
    obtain ⟨-, r, c, w', extras, extra, -, h⟩ := h3 hk
    exact ⟨r, c, w', extras, extra, h⟩

/-! ### Symmetric matrices -/
section
open Packed PackedSpec
variable [DecidableEq R]

/-- A symmetric matrix of size `n` with the elements `w`. -/
def SHolds (t : Tri) (o : Orient) (n : Nat) (m : SMat R) (w : Nat × Nat → R) : Prop := HInv id t o m ⟨n, fun a b => some (w (a, b))⟩ ∧ ∀ i j, w (i, j) = w (j, i)

omit [DecidableEq R] in
/-- Which means: its element (i,j) and its element (j,i) are `w (i,j)`. -/
theorem SHolds.reads {dbg : Bool} {t : Tri} (hk : t.kind = .lower) {o : Orient} {n : Nat} {m : SMat R} {w : Nat × Nat → R} (h : SHolds t o n m w) :
    m.size = n ∧ ∀ i j, i < n → j < n → m.get dbg t o i j = .ok (w (i, j)) := by
  obtain ⟨h1, h2⟩ := hinv_simplements dbg t hk o m _ h.1
  refine ⟨h1, fun i j hi hj => ?_⟩
  obtain ⟨⟨v, e, hv⟩, -⟩ := h2 i j hi hj
  rw [e, hv _ rfl]

omit [DecidableEq R] in
theorem SHolds.set {dbg : Bool} {t : Tri} (hk : t.kind = .lower) {o : Orient} {n : Nat} {m : SMat R} {w : Nat × Nat → R} (h : SHolds t o n m w) {i j : Nat} (hi : i < n) (hj : j < n) (v : R) :
    ∃ m', m.set dbg t o i j v = .ok m' ∧ SHolds t o n m' fun p => if p = (i, j) ∨ p = (j, i) then v else w p := by
  have hn := h.1.2.1
  simp only at hn
  obtain ⟨a, b, hab, hm, e⟩ := sset_eq (dbg := dbg) hk (o := o) h.1.1 (i := i) (j := j) (v := v) (by omega) (by omega)
  refine ⟨_, e, ?_, ?_⟩
  · apply write_inv id h.1 (by rcases hab with ⟨rfl, rfl⟩ | ⟨rfl, rfl⟩ <;> assumption)
      (by rcases hab with ⟨rfl, rfl⟩ | ⟨rfl, rfl⟩ <;> assumption) hm
    · rcases hab with ⟨rfl, rfl⟩ | ⟨rfl, rfl⟩ <;> simp
    · rcases hab with ⟨rfl, rfl⟩ | ⟨rfl, rfl⟩ <;> simp
    · intro x y h1 h2
      simp only [Prod.mk.injEq]
      rcases hab with ⟨rfl, rfl⟩ | ⟨rfl, rfl⟩ <;> rw [if_neg] <;> tauto
  · intro p q
    simp only [Prod.mk.injEq, h.2 p q]
    by_cases hc : (p = i ∧ q = j) ∨ (p = j ∧ q = i)
    · rw [if_pos hc, if_pos (by tauto)]
    · rw [if_neg hc, if_neg (by tauto)]

omit [DecidableEq R] in
theorem smake_holds (dbg : Bool) {t : Tri} (hk : t.kind = .lower) (o : Orient) (junk : Nat → R) (n : Nat) :
    ∃ m w, SMat.make dbg t junk n = .ok m ∧ m.data.length = psize t n n ∧ SHolds t o n m w := by
  let m : SMat R := ⟨n, (List.range (psize t n n)).map junk⟩
  have hi : HInv id t o m ⟨n, fun _ _ => none⟩ := fresh_inv id t o n _ (by simp)
  let w : Nat × Nat → R := fun p => if Mutable t p.1 p.2 then (m.data[cellOf t o p.1 n p.2 n]?).getD (junk 0) else (m.data[cellOf t o p.2 n p.1 n]?).getD (junk 0)
  refine ⟨m, w, by simp [SMat.make, packedSize_eq (fit_lower dbg t hk n n), m], by simp [m], ⟨hi.1, rfl, ?_⟩, ?_⟩
  · intro a b ha hb hm
    obtain ⟨x, e, -⟩ := hi.2.2 a b ha hb hm
    have e' : m.data[cellOf t o a n b n]? = some x := e
    refine ⟨x, e, ?_, ?_⟩
    · intro v hv
      simp only [Option.some.injEq] at hv
      rw [← hv]
      simp only [w, if_pos hm, e', Option.getD_some]
    · intro hne v hv
      simp only [Option.some.injEq] at hv
      rw [← hv]
      simp only [w, if_neg (mutable_antisymm t a b hm hne), e', Option.getD_some, id]
  · intro i j
    simp only [w]
    by_cases hij : i = j
    · subst hij; rfl
    · by_cases hm : Mutable t i j
      · rw [if_pos hm, if_neg (mutable_antisymm t i j hm hij)]
      · rw [if_neg hm, if_pos (mutable_total t hk i j hm).1]

theorem sym_elemSpec (dbg : Bool) {t : Tri} (hk : t.kind = .lower) (o : Orient) (n : Nat) :
    ElemSpec n n (SHolds (R := R) t o n) (fun f => ∀ i j, i < n → j < n → f (i, j) = f (j, i)) (SymStep (symAcc dbg t o)) := by
  refine ⟨?_, ?_⟩
  · intro x w i j a x' hx hi hj h
    rcases h with ⟨h1, h2⟩ | ⟨h1, h2, rfl⟩
    · obtain ⟨y, e, hy⟩ := hx.set (dbg := dbg) hk hi hj a
      simp only [symAcc] at h2
      rw [h2] at e
      obtain rfl := Except.ok.inj e
      refine ⟨_, hy, by simp, fun p hp => ?_⟩
      rw [if_neg]
      rintro (rfl | rfl) <;> rcases hp with hp | ⟨hp, hp'⟩ <;> simp at * <;> omega
    · refine ⟨w, hx, ?_, fun _ _ => rfl⟩
      simp only [symAcc, (hx.reads (dbg := dbg) hk).2 i j hi hj] at h2
      exact Except.ok.inj h2
  · intro f x w i j hf hx hi hj hw
    by_cases hij : i ≤ j
    · obtain ⟨y, e, -⟩ := hx.set (dbg := dbg) hk hi hj (f (i, j))
      exact ⟨y, Or.inl ⟨hij, e⟩⟩
    · refine ⟨x, Or.inr ⟨by omega, ?_, rfl⟩⟩
      simp only [symAcc]
      rw [(hx.reads (dbg := dbg) hk).2 i j hi hj, hx.2 i j, hw (j, i) hj hi (Or.inl (by simp only; omega)), hf i j hi hj]

theorem sym_row_reads (dbg : Bool) {t : Tri} (hk : t.kind = .lower) (E : ElemIO R) (o : Orient) (n : Nat) :
    Reads E n (fun x => ∃ w, SHolds (R := R) t o n x w) (Trow (SymStep (symAcc dbg t o)) n) (readSymRow E n (symAcc dbg t o)) :=
  list_reads fun i hi => symLoop_reads (fun x j hx hj => by
    obtain ⟨w, hx⟩ := hx
    exact ⟨_, (hx.reads (dbg := dbg) hk).2 i j hi hj⟩) (fun x j a hx hj => by
    obtain ⟨w, hx⟩ := hx
    obtain ⟨y, e, hy⟩ := hx.set (dbg := dbg) hk hi hj a
    exact ⟨y, e, _, hy⟩) n 0 (by omega)

/-- **C58** (symmetric matrices, what is accepted).  The text of a symmetric matrix is read as that matrix. -/
theorem C58_symmetric_accepts (dbg : Bool) (E : ElemIO R) (cap : Nat) (junk : Nat → R) {t : Tri} (hk : t.kind = .lower) (o : Orient) (m : SMat R) (n : Nat) (hcap : psize t n n ≤ cap)
    (f : Nat × Nat → R) (hf : ∀ i j, i < n → j < n → f (i, j) = f (j, i)) (extras : List Bool) (extra : Bool) (he : extras.length = n) (hr : extra = true → n ≠ 0)
    (b rest : List Char) (hs : Scan E (matrixText n (rowsOf n n f) extras extra) b rest) :
    ∃ x, readSMat dbg E cap junk t o m ⟨b, true⟩ = .ok (x, ⟨rest, true⟩) ∧ x.size = n ∧ ∀ i j, i < n → j < n → x.get dbg t o i j = .ok (f (i, j)) := by
  obtain ⟨m0, w0, hm, hl, h0⟩ := smake_holds dbg hk o junk n
  have hn : ∀ e ∈ extras, e = true → n ≠ 0 := by
    intro e he1 _ h0
    subst h0
    rw [List.length_eq_zero_iff] at he
    subst he
    simp at he1
  obtain ⟨x, w, h1, h2, h3⟩ := readWith_accept (sq := true) (item := fun c => readSymRow E c (symAcc dbg t o)) (make := fun r _ => do
      let m ← SMat.make dbg t junk r
      if cap < m.data.length then .error .stdException else .ok m) (Rep := fun r _ => SHolds t o r) (sym_elemSpec dbg hk o n) (sym_row_reads dbg hk E o n) (fun _ => rfl)
    (by rw [hm, bind_ok, if_neg (by omega)]) h0 hf he hn hr hs m
  obtain ⟨g1, g2⟩ := h2.reads (dbg := dbg) hk
  exact ⟨x, h1, g1, fun i j hi hj => by rw [g2 i j hi hj, h3 i j hi hj]⟩

/-- **C58** (symmetric matrices, everything else).  Whatever the stream holds, reading never goes wrong except that a size that cannot be allocated throws; if the stream has failed afterwards the
matrix is unchanged, and otherwise the text read was that of a square symmetric matrix, which has been read. -/
theorem C58_symmetric_only (dbg : Bool) (E : ElemIO R) (cap : Nat) (junk : Nat → R) {t : Tri} (hk : t.kind = .lower) (o : Orient) (m : SMat R) (s : IS) :
    (∃ n c b', s.ok = true ∧ Scan E [.ch '[', .size n, .ch ',', .size c, .ch ']'] s.buf b' ∧ cap < psize t n n ∧ readSMat dbg E cap junk t o m s = .error .stdException) ∨
    ∃ x s', readSMat dbg E cap junk t o m s = .ok (x, s') ∧ (s'.ok = false → x = m) ∧
      (s'.ok = true → s.ok = true ∧ ∃ n f extras extra, (∀ i j, f (i, j) = f (j, i)) ∧ x.size = n ∧ (∀ i j, i < n → j < n → x.get dbg t o i j = .ok (f (i, j))) ∧ extras.length = n ∧
        (extra = true → n ≠ 0) ∧ Scan E (matrixText n (rowsOf n n f) extras extra) s.buf s'.buf) := by
  rcases readWith_only (sq := true) (item := fun c => readSymRow E c (symAcc dbg t o)) (make := fun r _ => do
      let m ← SMat.make dbg t junk r
      if cap < m.data.length then .error .stdException else .ok m) (Rep := fun r c x w => r = c → SHolds t o r x w) (Good := fun _ => False) (Te := SymStep (symAcc dbg t o))
    (fun r c => by
      by_cases h : r = c
      · subst h
        have := sym_elemSpec (R := R) dbg hk o r
        exact ⟨fun x w i j a x' hx hi hj hT => by
          obtain ⟨w', h1, h2⟩ := this.step x w i j a x' (hx rfl) hi hj hT
          exact ⟨w', fun _ => h1, h2⟩, fun _ _ _ _ _ h => h.elim⟩
      · exact ⟨fun x w i j a x' hx hi hj hT => ⟨fun p => if p = (i, j) then a else w p, fun he => absurd he h, by simp, fun p hp => by
          show (if p = (i, j) then a else w p) = w p
          rw [if_neg]
          rintro rfl
          rcases hp with hp | ⟨-, hp⟩ <;> simp at hp⟩, fun _ _ _ _ _ h => h.elim⟩)
    (fun r c h => by
      obtain rfl := h rfl
      have := sym_row_reads (R := R) dbg hk E o r
      simpa using this) m s (by
      intro r c x b' _ _ hx
      obtain ⟨m0, w0, hm, hl, h0⟩ := smake_holds dbg hk o junk r
      rw [hm, bind_ok] at hx
      split at hx
      · simp at hx
      · obtain rfl := Except.ok.inj hx
        exact ⟨w0, fun _ => h0⟩) with ⟨r, c, e, b', h1, h2, h3, h4⟩ | ⟨x', s', h1, h2, h3⟩
  · left
    obtain ⟨m0, w0, hm, hl, h0⟩ := smake_holds dbg hk o junk r
    rw [hm, bind_ok] at h3
    split at h3
    · obtain rfl := Except.error.inj h3
      exact ⟨r, c, b', h1, h2, by omega, h4⟩
    · simp at h3
  · refine Or.inr ⟨x', s', h1, h2, fun hk' => ⟨(h3 hk').1, ?_⟩⟩
    obtain ⟨-, r, c, w', extras, extra, hq, h, g1, g2, g3, g4⟩ := h3 hk'
    obtain rfl := hq rfl
    obtain ⟨q1, q2⟩ := (h rfl).reads (dbg := dbg) hk
    exact ⟨r, w', extras, extra, (h rfl).2, q1, q2, g1, g3, g4⟩
end

end Ublas.IO
