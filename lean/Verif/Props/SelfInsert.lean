import Verif.Model.SelfInsert
import Verif.Props.CompressedVector
import Verif.Props.CompressedMatrix
/-! # C101: inserting a value that lives in the container -/
namespace Ublas
open Search Assoc SparseSpec
variable {α : Type}

/-- What position `p`, which held element `j`, holds after the elements from the insertion point of `i` on have moved up by one. -/
theorem shifted {E : List (Nat × α)} {s : Nat → Option α} (hr : Rep E s) {i n p j : Nat} {w : α} (hn : n ≤ E.length) (hs : Splits (E.map (·.1)) 0 E.length i n) (hi : s i = none)
    (hp : E[p]? = some (j, w)) {V V' : List α} (hV : V.take E.length = E.map (·.2)) (hV' : ∀ q : Nat, V'[q]? = if n < q ∧ q ≤ E.length then V[q - 1]? else V[q]?) :
    ∃ y, V'[p]? = some y ∧ ((j < i ∨ ∀ l, i < l → l < j → s l = none) → y = w) ∧
      ∀ l x, i < l → l < j → s l = some x → (∀ m, l < m → m < j → s m = none) → y = x := by
  have hpl : p < E.length := (List.getElem?_eq_some_iff.1 hp).1
  have hval : ∀ q, q < E.length → V[q]? = E[q]?.map (·.2) := by
    intro q hq
    have := congrArg (fun l => l[q]?) hV
    simpa [List.getElem?_take, hq] using this
  have hstored : ∀ {q : Nat} {l : Nat} {x : α}, E[q]? = some (l, x) → s l = some x := fun h => (hr.2 _ _).2 (List.mem_of_getElem? h)
  have hj := hstored hp
  have hji : j ≠ i := fun e => by rw [e, hi] at hj; simp at hj
  have hlow : ∀ {q : Nat} {l : Nat} {x : α}, q < n → E[q]? = some (l, x) → l < i := fun hq h => hs.2.2.1 _ _ (Nat.zero_le _) hq (by rw [List.getElem?_map, h]; rfl)
  have hhigh : ∀ {q : Nat} {l : Nat} {x : α}, n ≤ q → E[q]? = some (l, x) → i < l := by
    intro q l x hq h
    have := hs.2.2.2 q l hq ((List.getElem?_eq_some_iff.1 h).1) (by rw [List.getElem?_map, h]; rfl)
    rcases Nat.lt_or_eq_of_le this with h1 | h1
    · exact h1
    · have := hstored h; rw [← h1, hi] at this; simp at this
  have hmono : ∀ {q q' : Nat} {l l' : Nat} {x x' : α}, q < q' → E[q]? = some (l, x) → E[q']? = some (l', x') → l < l' := by
    intro q q' l l' x x' hq h h'
    have h1 := (List.getElem?_eq_some_iff.1 h); have h2 := (List.getElem?_eq_some_iff.1 h')
    have := List.pairwise_iff_getElem.1 hr.1 q q' h1.1 h2.1 hq
    rw [h1.2, h2.2] at this; exact this
  by_cases hpn : n < p
  · obtain ⟨⟨l0, x0⟩, h0⟩ : ∃ e, E[p - 1]? = some e := ⟨_, List.getElem?_eq_getElem (show p - 1 < E.length by omega)⟩
    have a1 := hhigh (show n ≤ p - 1 by omega) h0
    have a2 := hmono (show p - 1 < p by omega) h0 hp
    have a3 := hstored h0
    refine ⟨x0, ?_, ?_, ?_⟩
    · rw [hV', if_pos ⟨hpn, by omega⟩, hval _ (by omega), h0]; rfl
    · rintro (h | h)
      · have := hhigh (Nat.le_of_lt hpn) hp; omega
      · rw [h l0 a1 a2] at a3; simp at a3
    · intro l x h1 h2 h3 h4
      have : l = l0 := by
        rcases Nat.lt_trichotomy l l0 with h | h | h
        · rw [h4 l0 h a2] at a3; simp at a3
        · exact h
        · -- l stored strictly between E[p-1] and E[p]
          obtain ⟨q, hq⟩ := List.mem_iff_getElem?.1 ((hr.2 l x).1 h3)
          exfalso
          have b1 : p - 1 < q := by
            refine Nat.lt_of_not_le fun hle => ?_
            rcases Nat.lt_or_eq_of_le hle with c | c
            · have := hmono c hq h0; omega
            · rw [c, h0] at hq; simp only [Option.some.injEq, Prod.mk.injEq] at hq; omega
          have b2 : q < p := by
            refine Nat.lt_of_not_le fun hle => ?_
            rcases Nat.lt_or_eq_of_le hle with c | c
            · have := hmono c hp hq; omega
            · rw [← c, hp] at hq; simp only [Option.some.injEq, Prod.mk.injEq] at hq; omega
          omega
      subst this
      rw [a3] at h3; simpa using h3
  · refine ⟨w, ?_, fun _ => rfl, ?_⟩
    · rw [hV', if_neg (by omega), hval _ hpl, hp]; rfl
    · intro l x h1 h2 h3 _
      exfalso
      obtain ⟨q, hq⟩ := List.mem_iff_getElem?.1 ((hr.2 l x).1 h3)
      have b2 : q < p := by
        refine Nat.lt_of_not_le fun hle => ?_
        rcases Nat.lt_or_eq_of_le hle with c | c
        · have := hmono c hp hq; omega
        · rw [← c, hp] at hq; simp only [Option.some.injEq, Prod.mk.injEq] at hq; omega
      have := hlow (show q < n by omega) hq
      omega

/-- **C101** (compressed_vector).  In any reachable state (C19), for an element `i` that is not stored and a stored element `j`, `v.insert_element (i, t)` with `t` a reference to element `j`:
if the arrays are full, the reference dangles before it is read; otherwise element `i` gets the value of `j` when `j < i` or no stored element lies between them, and else the value of
the last stored element between them. -/
theorem C101_compressed_vector_insert (dbg : Bool) (IB : Nat) (zero : α) (junk : CVec.Junk α) (v : CVec α) (s : Vec α) (h : CVec.Inv IB v s) (i j p : Nat) (w : α) (hi : i < s.size) (hn : s.val i = none)
    (hj : s.val j = some w) (hp : v.slot IB j = .ok (some p)) :
    (v.filled = v.cap → v.insertElementRef dbg IB zero junk i p = .error .ub) ∧
    (v.filled < v.cap → ∃ v' n y, v.insertElementRef dbg IB zero junk i p = .ok (v', n) ∧ CVObserves dbg IB zero v' ⟨s.size, fun k => if k = i then some y else s.val k⟩ ∧
      ((j < i ∨ ∀ l, i < l → l < j → s.val l = none) → y = w) ∧ ∀ l x, i < l → l < j → s.val l = some x → (∀ m, l < m → m < j → s.val m = none) → y = x) := by
  obtain ⟨E, h⟩ := h
  have hE : E[p]? = some (j, w) := by
    rcases h.slot j with ⟨n, w', q1, q2, q3, q4, q5⟩ | ⟨q1, q2⟩
    · rw [q1] at hp; simp only [Except.ok.injEq, Option.some.injEq] at hp
      subst hp
      rw [hj] at q4; simp only [Option.some.injEq] at q4
      rw [q4]; exact q3
    · rw [q1] at hp; simp at hp
  have hfirst : (if dbg = true then (do
      let r ← v.findElement dbg IB i
      check dbg (r.isNone = true) .badIndex : M Unit) else .ok ()) = .ok () := by
    split
    · rw [h.findElement, bind_ok, hn]; simp
    · rfl
  have hdup : ∀ (v1 : CVec α) n, CVec.Repr IB v1 E s → Splits (E.map (·.1)) 0 E.length i n → (if dbg = true ∧ v1.filled ≠ 0 ∧ v1.filled ≠ n then (do
      let x ← rd false v1.idx n
      check dbg (x ≠ i + IB) .internalLogic : M Unit) else .ok ()) = .ok () := by
    intro v1 n g2 h3
    split
    · rename_i hc
      have hn' : n < v1.filled := by have := h3.2.1; rw [g2.holds.1] at this; omega
      have hd : n < E.length := by rw [g2.holds.1]; exact hn'
      have hx := g2.idxAt hn'
      rw [List.getElem?_eq_getElem hd] at hx
      rw [rd_eq_ok.2 hx, bind_ok, check_true]
      intro e
      have : s.val E[n].1 = some E[n].2 := g2.rep.some_of_getElem (List.getElem?_eq_getElem hd)
      rw [show E[n].1 = i by simp only at e; omega, hn] at this; simp at this
    · rfl
  constructor
  · intro hfull
    obtain ⟨v1, g1, g2, g3⟩ := h.grow dbg zero junk (h.filled_lt hi hn)
    obtain ⟨n, h1, h2, h3⟩ := g2.lb i
    obtain ⟨a1, a2, ha1, ha2, ha3, ha4⟩ := insert_prefix v1.idx n v1.filled (i + IB) h2 (by rw [g2.idxLen]; exact g3)
    obtain ⟨b1, hb1, hb2, _⟩ := copyBackward_spec v1.val n v1.filled h2 (by rw [g2.valLen]; exact g3)
    have hlen : b1.length ≠ v.val.length := by
      rw [hb2, g2.valLen, h.valLen]
      have : v1.filled = v.filled := by rw [← g2.holds.1, h.holds.1]
      omega
    unfold CVec.insertElementRef
    simp only [hfirst, bind_ok, g1, h1, hdup v1 n g2 h3, ha1, ha2, hb1, selfRead, if_pos hlen, ne_eq, hlen, not_false_eq_true, if_true]
    rfl
  · intro hroom
    obtain ⟨n, h1, h2, h3⟩ := h.lb i
    obtain ⟨b1, hb1, hb2, hb3⟩ := copyBackward_spec v.val n v.filled h2 (by rw [h.valLen]; exact hroom)
    obtain ⟨y, hy, y1, y2⟩ := shifted h.rep (by rw [h.holds.1]; exact h2) h3 hn hE (by rw [h.holds.1]; exact h.holds.2.2) (V' := b1) (by rw [h.holds.1]; exact hb3)
    obtain ⟨v', m, E', e, r, _⟩ := h.insert dbg zero junk i y hi hn
    refine ⟨v', m, y, ?_, ?_, y1, y2⟩
    · rw [← e]
      unfold CVec.insertElementRef CVec.insertElement
      have hge : ¬ v.filled ≥ v.cap := by omega
      have hl : ¬ b1.length ≠ v.val.length := by simp [hb2]
      simp only [if_neg hge, bind_ok, h1, hb1, selfRead, if_neg hl, rd_eq_ok.2 hy]
    · have ho := CVec.Inv.observes dbg IB zero ⟨E', r⟩
      exact ho

theorem CMat.flat_some (o : Orient) (s : CMatS α) {k : Nat} {x : α} (h : CMat.flat o s k = some x) :
    ∃ a b, a < s.rows ∧ b < s.cols ∧ k = o.indexM a b * o.sizem s.rows s.cols + o.indexm a b ∧ s.val (a, b) = some x := by
  have hk : k < s.rows * s.cols := by
    refine Nat.lt_of_not_le fun hle => ?_
    have : CMat.flat o s k = none := if_neg (Nat.not_lt.2 hle)
    rw [this] at h; simp at h
  have he : CMat.flat o s k = s.val (o.indexI k s.rows s.cols, o.indexJ k s.rows s.cols) := if_pos hk
  obtain ⟨q1, q2, q3⟩ := elementRaw_index o hk
  exact ⟨_, _, q1, q2, by rw [CMat.key_eq, q3], by rw [← he]; exact h⟩

/-- **C101** (compressed_matrix).  The same along the storage order (`Before o`: by major, then by minor index). -/
theorem C101_compressed_matrix_insert (dbg : Bool) (o : Orient) (IB : Nat) (zero : α) (junk : CMat.Junk α) (v : CMat α) (s : CMatS α) (h : CMat.Inv o IB v s) (i j i' j' p : Nat) (w : α)
    (hi : i < s.rows) (hj : j < s.cols) (hn : s.val (i, j) = none) (hj' : s.val (i', j') = some w) (hp : v.slot o IB i' j' = .ok (some p)) :
    (v.filled2 = v.cap → v.insertElementRef dbg o IB zero junk i j p = .error .ub) ∧
    (v.filled2 < v.cap → ∃ v' n y op, v.insertElementRef dbg o IB zero junk i j p = .ok (v', n) ∧
      CMObserves dbg o IB zero v' ⟨s.rows, s.cols, fun q => if q = (i, j) then some y else s.val q, op⟩ ∧
      ((Before o (i', j') (i, j) ∨ ∀ q, Before o (i, j) q → Before o q (i', j') → s.val q = none) → y = w) ∧
      ∀ q x, Before o (i, j) q → Before o q (i', j') → s.val q = some x → (∀ q', Before o q q' → Before o q' (i', j') → s.val q' = none) → y = x) := by
  have hInv := h
  obtain ⟨E, h, z1, z2, z3, z4⟩ := h
  have hin : i' < s.rows ∧ j' < s.cols := by
    rcases Classical.em (i' < s.rows ∧ j' < s.cols) with hc | hc
    · exact hc
    · rw [z4 i' j' hc] at hj'; simp at hj'
  have hm : o.indexm i j < o.sizem v.size1 v.size2 := by rw [z1, z2]; exact CMat.minor_lt o hi hj
  have hM : o.indexM i j < o.sizeM v.size1 v.size2 := by rw [z1, z2]; exact CMat.major_lt o hi hj
  have hm' : o.indexm i' j' < o.sizem v.size1 v.size2 := by rw [z1, z2]; exact CMat.minor_lt o hin.1 hin.2
  have hk : CMat.flat o s (o.indexM i j * o.sizem v.size1 v.size2 + o.indexm i j) = none := by rw [z1, z2, CMat.flat_at o s hi hj]; exact hn
  have hE : E[p]? = some (o.indexM i' j' * o.sizem v.size1 v.size2 + o.indexm i' j', w) := by
    rcases h.slot hm' with ⟨n, w', q1, q2, q3, q4, q5⟩ | ⟨q1, q2⟩
    · rw [q1] at hp; simp only [Except.ok.injEq, Option.some.injEq] at hp
      subst hp
      rw [z1, z2, CMat.flat_at o s hin.1 hin.2, hj'] at q4; simp only [Option.some.injEq] at q4
      rw [q4]; exact q3
    · rw [q1] at hp; simp at hp
  have hpre : (if dbg = true then do
        let r ← v.findElement dbg o IB i j
        check dbg (r.isNone = true) .badIndex
      else .ok () : M Unit) = .ok () := by
    rw [h.findElement dbg hm, hk]; simp
  have hroom : v.filled2 < v.size1 * v.size2 := h.filled2_lt (by rw [← CMat.sizeM_mul o v.size1 v.size2]; exact CMat.key_lt hM hm) hk
  constructor
  · intro hfull
    obtain ⟨v1, g1, g2, g3, g4, g5, g6, g7⟩ := h.grow dbg zero junk hroom
    obtain ⟨v2, a1, a2, a3, a4, a5, a6, a7⟩ := g2.openTo dbg (o.indexM i j + 2) (by rw [g3, g4]; omega)
    have hs1 : v2.size1 = v.size1 := by rw [a3, g3]
    have hs2 : v2.size2 = v.size2 := by rw [a4, g4]
    obtain ⟨n, b1, b2, b3⟩ := a2.seek (e1 := o.indexM i j) (e2 := o.indexm i j) (by rw [a5]; omega) (by rw [hs1, hs2]; exact hm)
    rw [hs1, hs2] at b1 b3
    rw [hk] at b1
    have hf : v2.filled2 < v2.cap := by rw [a6, a7]; exact g7
    obtain ⟨x1, x2, c1, c2, c3, c4⟩ := insert_prefix v2.idx2 n v2.filled2 (o.indexm i j + IB) b2 (by rw [a2.idx2Len]; exact hf)
    obtain ⟨y1, d1, d2, _⟩ := copyBackward_spec v2.val n v2.filled2 b2 (by rw [a2.valLen]; exact hf)
    have hlen : y1.length ≠ v.val.length := by rw [d2, a2.valLen, h.valLen, a7]; omega
    unfold CMat.insertElementRef
    simp only [hpre, bind_ok, g1, check_true g7, a1, b1, Option.isSome_none, check_True, c1, c2, d1, selfRead, ne_eq, hlen, not_false_eq_true, if_true]
    rfl
  · intro hcap
    obtain ⟨v2, a1, a2, a3, a4, a5, a6, a7⟩ := h.openTo dbg (o.indexM i j + 2) (by omega)
    obtain ⟨n, b1, b2, b3⟩ := a2.seek (e1 := o.indexM i j) (e2 := o.indexm i j) (by rw [a5]; omega) (by rw [a3, a4]; exact hm)
    rw [a3, a4] at b1 b3
    have hf : v2.filled2 < v2.cap := by rw [a6, a7]; exact hcap
    obtain ⟨y1, d1, d2, d3⟩ := copyBackward_spec v2.val n v2.filled2 b2 (by rw [a2.valLen]; exact hf)
    obtain ⟨y, hy, q1, q2⟩ := shifted a2.rep (by rw [a2.len]; exact b2) b3 hk hE (by rw [a2.len]; exact a2.vals) (V' := y1) (by rw [a2.len]; exact d3)
    obtain ⟨v', e, r⟩ := CMat.step_inv dbg o IB zero junk v s (.insert i j y) hInv ⟨hi, hj, hn⟩
    have hins : ∃ m, v.insertElement dbg o IB zero junk i j y = .ok (v', m) := by
      obtain ⟨v1, m, E1, e1, _⟩ := h.insert dbg zero junk y hM hm hk
      rw [CMat.step, e1, bind_ok] at e
      simp only [Except.ok.injEq] at e
      exact ⟨m, by rw [← e]; exact e1⟩
    obtain ⟨m, hins⟩ := hins
    have key : ∀ a b a' b', a < s.rows → b < s.cols → a' < s.rows → b' < s.cols →
        (o.indexM a b * o.sizem v.size1 v.size2 + o.indexm a b < o.indexM a' b' * o.sizem v.size1 v.size2 + o.indexm a' b' ↔ Before o (a, b) (a', b')) := by
      intro a b a' b' ha hb ha' hb'
      have l1 : o.indexm a b < o.sizem v.size1 v.size2 := by rw [z1, z2]; exact CMat.minor_lt o ha hb
      have l2 : o.indexm a' b' < o.sizem v.size1 v.size2 := by rw [z1, z2]; exact CMat.minor_lt o ha' hb'
      unfold Before
      simp only
      generalize o.sizem v.size1 v.size2 = sm at *
      constructor
      · intro hlt
        rcases Nat.lt_trichotomy (o.indexM a b) (o.indexM a' b') with h | h | h
        · exact .inl h
        · rw [h] at hlt; exact .inr ⟨h, by omega⟩
        · have : (o.indexM a' b' + 1) * sm ≤ o.indexM a b * sm := Nat.mul_le_mul_right _ h
          rw [Nat.add_mul] at this; omega
      · rintro (h | ⟨h, h'⟩)
        · have : (o.indexM a b + 1) * sm ≤ o.indexM a' b' * sm := Nat.mul_le_mul_right _ h
          rw [Nat.add_mul] at this; omega
        · rw [h]; omega
    -- every flat key that is stored belongs to a pair inside
    have hstored : ∀ k x, CMat.flat o s k = some x → ∃ a b, a < s.rows ∧ b < s.cols ∧ k = o.indexM a b * o.sizem v.size1 v.size2 + o.indexm a b ∧ s.val (a, b) = some x := by
      intro k x hkx
      rw [z1, z2]
      exact CMat.flat_some o s hkx
    refine ⟨v', m, y, _, ?_, CMat.Inv.observes dbg o IB zero r, ?_, ?_⟩
    · rw [← hins]
      unfold CMat.insertElementRef CMat.insertElement
      have hge : ¬ v.filled2 ≥ v.cap := by omega
      have hl : ¬ y1.length ≠ v.val.length := by simp [d2, a2.valLen, h.valLen, a7]
      simp only [if_neg hge, bind_ok, a1, b1, d1, selfRead, if_neg hl, rd_eq_ok.2 hy]
    · intro hc
      refine q1 ?_
      rcases hc with hc | hc
      · exact .inl ((key i' j' i j hin.1 hin.2 hi hj).2 hc)
      · refine .inr fun l h1 h2 => ?_
        cases hl : CMat.flat o s l with
        | none => rfl
        | some x =>
          obtain ⟨a, b, ha, hb, rfl, hx⟩ := hstored l x hl
          rw [hc (a, b) ((key i j a b hi hj ha hb).1 h1) ((key a b i' j' ha hb hin.1 hin.2).1 h2)] at hx
          simp at hx
    · rintro ⟨a, b⟩ x h1 h2 h3 h4
      have hab : a < s.rows ∧ b < s.cols := by
        rcases Classical.em (a < s.rows ∧ b < s.cols) with hc | hc
        · exact hc
        · rw [z4 a b hc] at h3; simp at h3
      refine q2 (o.indexM a b * o.sizem v.size1 v.size2 + o.indexm a b) x ((key i j a b hi hj hab.1 hab.2).2 h1) ((key a b i' j' hab.1 hab.2 hin.1 hin.2).2 h2)
        (by rw [z1, z2, CMat.flat_at o s hab.1 hab.2]; exact h3) ?_
      intro l h5 h6
      cases hl : CMat.flat o s l with
      | none => rfl
      | some x =>
        obtain ⟨a', b', ha, hb, rfl, hx⟩ := hstored l x hl
        rw [h4 (a', b') ((key a b a' b' hab.1 hab.2 ha hb).1 h5) ((key a' b' i' j' ha hb hin.1 hin.2).1 h6)] at hx
        simp at hx

/-- A compressed_vector<int> of size 8 with room for `nz` elements that holds 3 ↦ 30 and 5 ↦ 50; then `v.insert_element (2, t)` with `t` a reference to element 5, and `v (2)` is read. -/
def C101_run (dbg : Bool) (nz i j : Nat) : M Int := do
  let v0 ← CVec.ctor dbg 0 (fun _ => 0, fun _ => 0) 8 nz
  let v ← CVec.run dbg 0 0 v0 [(.insert 3 30, (fun _ => 0, fun _ => 0)), (.insert 5 50, (fun _ => 0, fun _ => 0))]
  match ← v.slot 0 j with
  | none => .error .ub
  | some p => do
    let (w, _) ← v.insertElementRef dbg 0 0 (fun _ => 0, fun _ => 0) i p
    w.get dbg 0 0 i

/-- **C101** (refuted).  A user expects element 2 to become 50.  With room it becomes 30, the value of a different element; without room the memory referred to has been freed.  In both build
modes; the same for a compressed_matrix.  Inserting after `j` works. -/
theorem C101_self_insert_refuted (dbg : Bool) : C101_run dbg 4 2 5 = .ok 30 ∧ C101_run dbg 2 2 5 = .error .ub ∧ C101_run dbg 4 6 5 = .ok 50 ∧
    (do let v0 ← CMat.ctor dbg .row 0 cmJunk 2 4 4
        let v ← CMat.run dbg .row 0 0 v0 [(.insert 0 1 10, cmJunk), (.insert 1 3 13, cmJunk)]
        match ← v.slot .row 0 1 3 with
        | none => .error .ub
        | some p => do
          let (w, _) ← v.insertElementRef dbg .row 0 0 cmJunk 0 0 p
          w.get dbg .row 0 0 0 0 : M Int) = .ok 10 := by
  cases dbg <;> decide +kernel

/-- The hypotheses of `C101_compressed_vector_insert` are met. -/
example : ∃ (v : CVec Int) (s : Vec Int), CVec.Inv 0 v s ∧ 2 < s.size ∧ s.val 2 = none ∧ s.val 5 = some 50 ∧ v.slot 0 5 = .ok (some 1) ∧ v.filled < v.cap := by
  obtain ⟨v0, e0, h0⟩ := CVec.inv_ctor (α := Int) true 0 (fun _ => 0, fun _ => 0) 8 4
  obtain ⟨v, e, h⟩ := CVec.run_inv true 0 0 [(.insert 3 30, (fun _ => 0, fun _ => 0)), (.insert 5 50, (fun _ => 0, fun _ => 0))] v0 _ h0
    ⟨⟨by decide, rfl⟩, ⟨by decide, rfl⟩, trivial⟩
  refine ⟨v, _, h, by decide, rfl, rfl, ?_⟩
  have h1 : (CVec.ctor true 0 (fun _ => 0, fun _ => (0 : Int)) 8 4) = .ok ⟨8, 4, 0, [0, 0, 0, 0], [0, 0, 0, 0]⟩ := by rfl
  rw [h1] at e0
  simp only [Except.ok.injEq] at e0
  subst e0
  have h2 : CVec.run true 0 0 (⟨8, 4, 0, [0, 0, 0, 0], [0, 0, 0, 0]⟩ : CVec Int) [(.insert 3 30, (fun _ => 0, fun _ => 0)), (.insert 5 50, (fun _ => 0, fun _ => 0))]
    = .ok ⟨8, 4, 2, [3, 5, 0, 0], [30, 50, 0, 0]⟩ := by rfl
  rw [h2] at e
  simp only [Except.ok.injEq] at e
  subst e
  exact ⟨by rfl, by decide⟩

end Ublas
