import Verif.Props.Assigner
import Verif.Props.Solve
import Mathlib.Data.List.GetD
/-! # C57: what comma assignment leaves in the target -/
namespace Ublas.Assigner
open SparseSpec
variable {σ ι R : Type}

/-! ## Effects of writes -/

/-- A write that the checked element access performs. -/
def Write.Plain (a : Write ι R) : Prop := a.fill = .assign ∨ a.fill = .plus ∨ a.fill = .minus

/-- Element access refuses positions outside `In`. -/
def Guarded (A : Acc σ ι R) (In : ι → Prop) (Rep : σ → (ι → R) → Prop) : Prop :=
  ∀ s w, Rep s w → ∀ i, ¬ In i → A.get s i = .error .badIndex ∧ ∀ x, A.set s i x = .error .badIndex

section
variable [DecidableEq ι] [Add R] [Sub R]

theorem write_ok {A : Acc σ ι R} {In : ι → Prop} {Rep : σ → (ι → R) → Prop} (h : A.Lawful In Rep) (push ins : σ → ι → R → M σ) {a : Write ι R} (ha : a.Plain) (hi : In a.at_) {s : σ} {w : ι → R}
    (hs : Rep s w) : ∃ s', Target.ofAcc A push ins a.fill s a.at_ a.val = .ok s' ∧ Rep s' (a.effect w) := by
  obtain ⟨f, i, x⟩ := a
  have key : ∀ t, (∃ s', A.set s i t = .ok s' ∧ Rep s' fun k => if k = i then t else w k) := fun t => by
    obtain ⟨s', e, h'⟩ := h.set s w hs i hi t
    refine ⟨s', e, ?_⟩
    convert h' using 1
    funext k; rw [Function.update_apply]
  rcases ha with rfl | rfl | rfl
  · exact key x
  · obtain ⟨s', e, h'⟩ := key (w i + x)
    refine ⟨s', by simp only [Target.ofAcc, Acc.add, h.get s w hs i hi, bind_ok, e], ?_⟩
    convert h' using 1
    funext k; simp only [Write.effect]; split_ifs with hk
    · rw [hk]
    · rfl
  · obtain ⟨s', e, h'⟩ := key (w i - x)
    refine ⟨s', by simp only [Target.ofAcc, h.get s w hs i hi, bind_ok, e], ?_⟩
    convert h' using 1
    funext k; simp only [Write.effect]; split_ifs with hk
    · rw [hk]
    · rfl

/-- Writes inside the target all succeed and have their effect. -/
theorem perform_ok {A : Acc σ ι R} {In : ι → Prop} {Rep : σ → (ι → R) → Prop} (h : A.Lawful In Rep) (push ins : σ → ι → R → M σ) : ∀ (ws : List (Write ι R)) {s : σ} {w : ι → R},
    (∀ a ∈ ws, a.Plain ∧ In a.at_) → Rep s w → ∃ s', perform (Target.ofAcc A push ins) ws s = .ok s' ∧ Rep s' (effects ws w)
  | [], s, w, _, hs => ⟨s, rfl, hs⟩
  | a :: ws, s, w, hw, hs => by
    obtain ⟨s1, e1, h1⟩ := write_ok h push ins (hw a (by simp)).1 (hw a (by simp)).2 hs
    obtain ⟨s2, e2, h2⟩ := perform_ok h push ins ws (fun b hb => hw b (by simp [hb])) h1
    exact ⟨s2, by rw [perform_cons, e1, bind_ok, e2], h2⟩

/-- A write outside the target stops the assignment. -/
theorem perform_refused {A : Acc σ ι R} {In : ι → Prop} {Rep : σ → (ι → R) → Prop} (h : A.Lawful In Rep) (hg : Guarded A In Rep) (push ins : σ → ι → R → M σ) : ∀ (ws : List (Write ι R)) {s : σ} {w : ι → R},
    (∀ a ∈ ws, a.Plain) → (∃ a ∈ ws, ¬ In a.at_) → Rep s w → perform (Target.ofAcc A push ins) ws s = .error .badIndex
  | [], _, _, _, ho, _ => by simp at ho
  | a :: ws, s, w, hw, ho, hs => by
    rw [perform_cons]
    by_cases hi : In a.at_
    · obtain ⟨s1, e1, h1⟩ := write_ok h push ins (hw a (by simp)) hi hs
      rw [e1, bind_ok]
      refine perform_refused h hg push ins ws (fun b hb => hw b (by simp [hb])) ?_ h1
      obtain ⟨b, hb, hn⟩ := ho
      rcases List.mem_cons.1 hb with rfl | hb
      · exact absurd hi hn
      · exact ⟨b, hb, hn⟩
    · obtain ⟨g1, g2⟩ := hg s w hs _ hi
      have := hw a (by simp)
      obtain ⟨f, i, x⟩ := a
      rcases this with rfl | rfl | rfl
      · simp only [Target.ofAcc, g2, bind_error]
      · simp only [Target.ofAcc, Acc.add, g1, bind_error]
      · simp only [Target.ofAcc, g1, bind_error]

theorem effects_not_mem {ws : List (Write ι R)} {i : ι} : ∀ {w : ι → R}, (∀ a ∈ ws, a.at_ ≠ i) → effects ws w i = w i := by
  induction ws with
  | nil => intro w _; rfl
  | cons a ws ih =>
    intro w h
    show effects ws (a.effect w) i = _
    rw [ih fun b hb => h b (by simp [hb]), Write.effect, if_neg (Ne.symm (h a (by simp)))]

/-- Stores whose values are read off `G` leave `G` at the written positions. -/
theorem effects_mem {G : ι → R} {ws : List (Write ι R)} {i : ι} : ∀ {w : ι → R}, (∀ a ∈ ws, a.fill = .assign ∧ a.val = G a.at_) → (w i = G i ∨ ∃ a ∈ ws, a.at_ = i) → effects ws w i = G i := by
  induction ws with
  | nil => intro w _ h; simpa [effects] using h
  | cons a ws ih =>
    intro w h hi
    show effects ws (a.effect w) i = _
    refine ih (fun b hb => h b (by simp [hb])) ?_
    obtain ⟨h1, h2⟩ := h a (by simp)
    obtain ⟨f, p, x⟩ := a
    subst h1
    by_cases hp : i = p
    · left; rw [Write.effect, if_pos hp, hp]; exact h2
    · rcases hi with hi | ⟨b, hb, hbi⟩
      · left; rw [Write.effect, if_neg hp, hi]
      · rcases List.mem_cons.1 hb with rfl | hb
        · exact absurd hbi.symm hp
        · exact .inr ⟨b, hb, hbi⟩
end

/-! ## Vectors -/

theorem vwrites_vals (f : Fill) : ∀ (p : Nat) (xss : List (List R)), vwrites f p (xss.map .vals) = xss.flatten.mapIdx fun t x => ⟨f, p + t, x⟩
  | p, [] => rfl
  | p, xs :: xss => by
    rw [List.map_cons, vwrites, vwrites_vals f _ xss, List.flatten_cons, List.mapIdx_append]
    congr 2
    funext t x
    rw [show p + xs.length + t = p + (t + xs.length) by omega]

theorem mem_mapIdx {α β : Type} {g : Nat → α → β} {xs : List α} {b : β} : b ∈ xs.mapIdx g ↔ ∃ k, ∃ h : k < xs.length, b = g k xs[k] := by
  rw [List.mem_iff_getElem]
  constructor
  · rintro ⟨k, hk, rfl⟩
    rw [List.length_mapIdx] at hk
    exact ⟨k, hk, by simp⟩
  · rintro ⟨k, hk, rfl⟩
    exact ⟨k, by simpa using hk, by simp⟩

/-- **C57**, contents: any script of values, vectors, moves and the policies assign, plus_assign, minus_assign whose writes stay inside the vector succeeds, and the elements are those that the writes
give one after the other; a script that leaves the vector is refused when checks are on. -/
theorem C57_vector [Add R] [Sub R] {A : Acc σ Nat R} {n : Nat} {Rep : σ → (Nat → R) → Prop} (hA : A.Lawful (· < n) Rep) (push ins : σ → Nat → R → M σ) {items : List (VItem R)} {specs : List (VSpec R)}
    (h : List.Forall₂ VItem.Means items specs) {s : σ} {w : Nat → R} (hs : Rep s w) (hp : ∀ a ∈ vwrites .assign 0 specs, a.Plain) :
    ((∀ a ∈ vwrites .assign 0 specs, a.at_ < n) → ∃ s', vassign (Target.ofAcc A push ins) s items = .ok s' ∧ Rep s' (effects (vwrites .assign 0 specs) w)) ∧
    (Guarded A (· < n) Rep → (∃ a ∈ vwrites .assign 0 specs, ¬ a.at_ < n) → vassign (Target.ofAcc A push ins) s items = .error .badIndex) := by
  rw [C57_vector_writes _ h]
  exact ⟨fun hi => perform_ok hA push ins _ (fun a ha => ⟨hp a ha, hi a ha⟩) hs, fun hg ho => perform_refused hA hg push ins _ hp ho hs⟩

/-- **C57**: `v <<= x0, x1, …` (single values and vector expressions; `xss` are their values) stores the values one after the other from the front and changes nothing else; too many values are refused
when checks are on. -/
theorem C57_vector_values [Add R] [Sub R] {A : Acc σ Nat R} {n : Nat} {Rep : σ → (Nat → R) → Prop} (hA : A.Lawful (· < n) Rep) (push ins : σ → Nat → R → M σ) {items : List (VItem R)} {xss : List (List R)}
    (h : List.Forall₂ VItem.Means items (xss.map .vals)) {s : σ} {w : Nat → R} (hs : Rep s w) :
    (xss.flatten.length ≤ n → ∃ s' w', vassign (Target.ofAcc A push ins) s items = .ok s' ∧ Rep s' w' ∧ ∀ i, w' i = if hi : i < xss.flatten.length then xss.flatten[i] else w i) ∧
    (Guarded A (· < n) Rep → n < xss.flatten.length → vassign (Target.ofAcc A push ins) s items = .error .badIndex) := by
  have hw : ∀ a ∈ vwrites .assign 0 (xss.map .vals), a.Plain ∧ ∃ h : a.at_ < xss.flatten.length, a.fill = .assign ∧ a.val = xss.flatten[a.at_] := by
    intro a ha
    rw [vwrites_vals, mem_mapIdx] at ha
    obtain ⟨k, hk, rfl⟩ := ha
    refine ⟨.inl rfl, by simpa using hk, rfl, by simp⟩
  have hm : ∀ i, i < xss.flatten.length → ∃ a ∈ vwrites .assign 0 (xss.map .vals), a.at_ = i := by
    intro i hi
    rw [vwrites_vals]
    exact ⟨_, mem_mapIdx.2 ⟨i, hi, rfl⟩, by simp⟩
  obtain ⟨c1, c2⟩ := C57_vector hA push ins h hs fun a ha => (hw a ha).1
  constructor
  · intro hn
    obtain ⟨s', e, h'⟩ := c1 fun a ha => by obtain ⟨_, h1, _⟩ := hw a ha; omega
    refine ⟨s', _, e, h', fun i => ?_⟩
    split_ifs with hi
    · have := effects_mem (G := fun i => xss.flatten.getD i (w i)) (ws := vwrites .assign 0 (xss.map .vals)) (i := i) (w := w) (fun a ha => by
        obtain ⟨_, h1, h2, h3⟩ := hw a ha
        refine ⟨h2, ?_⟩
        rw [h3, List.getD_eq_getElem _ _ h1]) (.inr (hm i hi))
      rw [this, List.getD_eq_getElem _ _ hi]
    · exact effects_not_mem fun a ha => by obtain ⟨_, h1, _⟩ := hw a ha; omega
  · intro hg hn
    obtain ⟨a, ha, hi⟩ := hm n hn
    exact c2 hg ⟨a, ha, by omega⟩

/-! ## Matrices -/

/-- **C57**, contents of a matrix after any script of values, vectors, blocks, moves, traverse policies and the policies assign, plus_assign, minus_assign. -/
theorem C57_matrix [Add R] [Sub R] {A : Acc σ (Nat × Nat) R} {r c : Nat} {Rep : σ → (Nat × Nat → R) → Prop} (hA : A.Lawful (fun p => p.1 < r ∧ p.2 < c) Rep) (push ins : σ → Nat × Nat → R → M σ)
    (hr : 0 < r) (hc : 0 < c) {items : List (MItem R)} {specs : List (MSpec R)} (h : List.Forall₂ MItem.Means items specs) {s : σ} {w : Nat × Nat → R} (hs : Rep s w)
    (hp : ∀ a ∈ mwrites r c .assign ⟨true, true⟩ 0 0 specs, a.Plain) :
    ((∀ a ∈ mwrites r c .assign ⟨true, true⟩ 0 0 specs, a.at_.1 < r ∧ a.at_.2 < c) →
      ∃ s', massign (Target.ofAcc A push ins) r c s items = .ok s' ∧ Rep s' (effects (mwrites r c .assign ⟨true, true⟩ 0 0 specs) w)) ∧
    (Guarded A (fun p => p.1 < r ∧ p.2 < c) Rep → (∃ a ∈ mwrites r c .assign ⟨true, true⟩ 0 0 specs, ¬ (a.at_.1 < r ∧ a.at_.2 < c)) → massign (Target.ofAcc A push ins) r c s items = .error .badIndex) := by
  rw [C57_matrix_writes _ hr hc h]
  exact ⟨fun hi => perform_ok hA push ins _ (fun a ha => ⟨hp a ha, hi a ha⟩) hs, fun hg ho => perform_refused hA hg push ins _ hp ho hs⟩

theorem runPos_add {len : Nat} (q : Nat × Nat) (n k : Nat) : runPos true len (runPos true len q n) k = runPos true len q (n + k) := by
  simp only [runPos, if_true]
  have := Nat.div_add_mod (q.1 * len + q.2 + n) len
  rw [Nat.mul_comm] at this
  rw [this, Nat.add_assoc (q.1 * len + q.2)]

theorem mwrites_vals (r c : Nat) (hr : 0 < r) (hc : 0 < c) (f : Fill) (b : Bool) (rest : List (MSpec R)) : ∀ (xss : List (List R)) (i j : Nat),
    ∃ i' j', mwrites r c f ⟨b, true⟩ i j (xss.map .vals ++ rest) = (xss.flatten.mapIdx fun k x =>
      ⟨f, inLines b (runPos true (if b then c else r) (carry true (if b then c else r) (inLines b (i, j))) k), x⟩) ++ mwrites r c f ⟨b, true⟩ i' j' rest := by
  intro xss
  induction xss with
  | nil => intro i j; exact ⟨i, j, rfl⟩
  | cons xs xss ih =>
    intro i j
    simp only [List.map_cons, List.cons_append, mwrites, List.flatten_cons, List.mapIdx_append]
    obtain ⟨i', j', e⟩ := ih (inLines b (runEnd true (if b then c else r) (inLines b (i, j)) xs.length)).1 (inLines b (runEnd true (if b then c else r) (inLines b (i, j)) xs.length)).2
    refine ⟨i', j', ?_⟩
    rw [e, List.append_assoc]
    congr 2
    have hl : 0 < (if b then c else r) := by split_ifs <;> assumption
    simp only [Prod.mk.eta, inLines_inLines, carry_runEnd hl, runPos_add, Nat.add_comm]

/-- Values that fill the lines of the matrix from the start: with `len` elements per line, the `k`-th value goes to line `k / len`, position `k % len`. -/
theorem mwrites_fill (r c : Nat) (hr : 0 < r) (hc : 0 < c) (b : Bool) (xss : List (List R)) :
    mwrites r c .assign ⟨b, true⟩ 0 0 (xss.map .vals) = xss.flatten.mapIdx fun k x => ⟨.assign, inLines b (k / (if b then c else r), k % (if b then c else r)), x⟩ := by
  obtain ⟨i, j, e⟩ := mwrites_vals r c hr hc .assign b [] xss 0 0
  have hl : 0 < (if b then c else r) := by split_ifs <;> assumption
  have h0 : carry true (if b then c else r) (inLines b (0, 0)) = (0, 0) := by
    rw [carry, if_neg]
    · cases b <;> rfl
    · cases b <;> simp_all [inLines] <;> omega
  rw [List.append_nil] at e
  rw [e, h0, mwrites, List.append_nil]
  simp [runPos]

/-- **C57**: `A <<= x0, x1, …` fills the matrix row by row, `A <<= by_column (), x0, x1, …` column by column; elements beyond the given values keep their value, and too many values are refused when
checks are on. -/
theorem C57_matrix_values [Add R] [Sub R] {A : Acc σ (Nat × Nat) R} {r c : Nat} {Rep : σ → (Nat × Nat → R) → Prop} (hA : A.Lawful (fun p => p.1 < r ∧ p.2 < c) Rep) (push ins : σ → Nat × Nat → R → M σ)
    (hr : 0 < r) (hc : 0 < c) (byRow : Bool) {items : List (MItem R)} {xss : List (List R)} (h : List.Forall₂ MItem.Means items (xss.map .vals)) {s : σ} {w : Nat × Nat → R} (hs : Rep s w) :
    (xss.flatten.length ≤ r * c → ∃ s' w', massign (Target.ofAcc A push ins) r c s (.traverse ⟨byRow, true⟩ :: items) = .ok s' ∧ Rep s' w' ∧
      ∀ i j, i < r → j < c → w' (i, j) = xss.flatten.getD (if byRow then i * c + j else j * r + i) (w (i, j))) ∧
    (Guarded A (fun p => p.1 < r ∧ p.2 < c) Rep → r * c < xss.flatten.length → massign (Target.ofAcc A push ins) r c s (.traverse ⟨byRow, true⟩ :: items) = .error .badIndex) := by
  have he : mwrites r c .assign ⟨true, true⟩ 0 0 (.traverse ⟨byRow, true⟩ :: xss.map .vals) =
      xss.flatten.mapIdx fun k x => ⟨.assign, inLines byRow (k / (if byRow then c else r), k % (if byRow then c else r)), x⟩ := by
    rw [← mwrites_fill r c hr hc byRow xss, mwrites]
    have : carry true c (0, 0) = (0, 0) := by rw [carry, if_neg]; simp; omega
    simp only [inLines, if_true, this]
  have hin : ∀ k, k < r * c → (inLines byRow (k / (if byRow then c else r), k % (if byRow then c else r))).1 < r ∧ (inLines byRow (k / (if byRow then c else r), k % (if byRow then c else r))).2 < c := by
    intro k hk
    cases byRow with
    | true => exact ⟨(Nat.div_lt_iff_lt_mul hc).2 hk, Nat.mod_lt _ hc⟩
    | false => exact ⟨Nat.mod_lt _ hr, (Nat.div_lt_iff_lt_mul hr).2 (by rwa [Nat.mul_comm])⟩
  have hpl : ∀ a ∈ mwrites r c .assign ⟨true, true⟩ 0 0 (.traverse ⟨byRow, true⟩ :: xss.map .vals), a.Plain := by
    rw [he]; intro a ha
    obtain ⟨k, hk, rfl⟩ := mem_mapIdx.1 ha
    exact .inl rfl
  obtain ⟨c1, c2⟩ := C57_matrix hA push ins hr hc (.cons (.traverse ⟨byRow, true⟩) h) hs hpl
  constructor
  · intro hn
    obtain ⟨s', e, h'⟩ := c1 (by
      rw [he]; intro a ha
      obtain ⟨k, hk, rfl⟩ := mem_mapIdx.1 ha
      exact hin k (by omega))
    refine ⟨s', _, e, h', fun i j hi hj => ?_⟩
    rw [he]
    have hpos : ∀ k, inLines byRow (k / (if byRow then c else r), k % (if byRow then c else r)) = (i, j) → k = if byRow then i * c + j else j * r + i := by
      intro k hk
      cases byRow with
      | true =>
        simp only [inLines, if_true, Prod.mk.injEq] at hk ⊢
        have := Nat.div_add_mod k c; rw [hk.1, hk.2, Nat.mul_comm] at this; omega
      | false =>
        simp only [inLines, Bool.false_eq_true, if_false, Prod.mk.injEq] at hk ⊢
        have := Nat.div_add_mod k r; rw [hk.1, hk.2, Nat.mul_comm] at this; omega
    have hpos' : inLines byRow ((if byRow then i * c + j else j * r + i) / (if byRow then c else r), (if byRow then i * c + j else j * r + i) % (if byRow then c else r)) = (i, j) := by
      cases byRow with
      | true => simp only [inLines, if_true, CMat.key_div hj, CMat.key_mod hj]
      | false => simp only [inLines, Bool.false_eq_true, if_false, CMat.key_div hi, CMat.key_mod hi]
    by_cases hk : (if byRow then i * c + j else j * r + i) < xss.flatten.length
    · rw [effects_mem (G := fun p => xss.flatten.getD (if byRow then p.1 * c + p.2 else p.2 * r + p.1) (w p)) (i := (i, j)) (w := w)]
      · intro a ha
        obtain ⟨k, hk, rfl⟩ := mem_mapIdx.1 ha
        refine ⟨rfl, ?_⟩
        have hk' : k = if byRow then (inLines byRow (k / (if byRow then c else r), k % (if byRow then c else r))).1 * c + (inLines byRow (k / (if byRow then c else r), k % (if byRow then c else r))).2
            else (inLines byRow (k / (if byRow then c else r), k % (if byRow then c else r))).2 * r + (inLines byRow (k / (if byRow then c else r), k % (if byRow then c else r))).1 := by
          cases byRow with
          | true => simp only [inLines, if_true]; rw [Nat.mul_comm]; exact (Nat.div_add_mod k c).symm
          | false => simp only [inLines, Bool.false_eq_true, if_false]; rw [Nat.mul_comm]; exact (Nat.div_add_mod k r).symm
        simp only [← hk']
        rw [List.getD_eq_getElem _ _ hk]
      · exact .inr ⟨_, mem_mapIdx.2 ⟨_, hk, rfl⟩, hpos'⟩
    · rw [effects_not_mem]
      · rw [List.getD_eq_default _ _ (Nat.not_lt.1 hk)]
      · intro a ha hc
        obtain ⟨k, hk', rfl⟩ := mem_mapIdx.1 ha
        have := hpos k hc
        omega
  · intro hg hn
    refine c2 hg ?_
    rw [he]
    refine ⟨_, mem_mapIdx.2 ⟨r * c, hn, rfl⟩, ?_⟩
    cases byRow with
    | true => simp [inLines, Nat.mul_div_cancel _ hc]
    | false => simp [inLines, Nat.mul_div_cancel_left _ hr]

end Ublas.Assigner
