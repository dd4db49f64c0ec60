import Verif.Props.Packed
/-! # C09, C10: symmetric and hermitian matrices -/
namespace Ublas
open Packed PackedSpec
variable {α : Type}

/-- Representation invariant of symmetric and hermitian matrices. -/
def SWF (t : Tri) (m : SMat α) : Prop := m.data.length = psize t m.size m.size

/-- Internal form of the refinement: the stored triangle holds the abstract elements. -/
def HInv (conj : α → α) (t : Tri) (o : Orient) (m : SMat α) (s : SSpec α) : Prop :=
  SWF t m ∧ m.size = s.n ∧ ∀ a b, a < s.n → b < s.n → Mutable t a b →
    ∃ x, m.data[cellOf t o a m.size b m.size]? = some x ∧ (∀ w, s.val a b = some w → x = w) ∧
      (a ≠ b → ∀ w, s.val b a = some w → conj x = w)

theorem fit_lower (dbg : Bool) (t : Tri) (hk : t.kind = .lower) (r c : Nat) : Fit dbg t r c :=
  fit_of _ _ _ _ fun _ => Or.inl hk

theorem mutable_total (t : Tri) (hk : t.kind = .lower) (i j : Nat) (h : ¬ Mutable t i j) : Mutable t j i ∧ i ≠ j := by
  obtain ⟨k, u⟩ := t
  cases u <;> simp_all [Mutable] <;> omega

theorem mutable_antisymm (t : Tri) (i j : Nat) (h : Mutable t i j) (h' : i ≠ j) : ¬ Mutable t j i := by
  obtain ⟨k, u⟩ := t
  cases k <;> cases u <;> simp_all [Mutable] <;> omega

theorem not_other {t : Tri} {i j : Nat} (h : ¬ Mutable t i j) : other t i j = false := by
  rw [← Bool.not_eq_true]; exact fun hh => h ((other_iff t i j).1 hh)

theorem hget_stored (conj : α → α) {dbg : Bool} {t : Tri} (hk : t.kind = .lower) {o : Orient} {m : SMat α}
    {i j : Nat} (hi : i < m.size) (hj : j < m.size) (h : Mutable t i j) :
    m.hget conj dbg t o i j = rd dbg m.data (cellOf t o i m.size j m.size) := by
  have h' := (other_iff t i j).2 h
  simp [SMat.hget, check_true hi, check_true hj, h', element_eq (fit_lower dbg t hk _ _) hi hj h']

theorem hget_mirror (conj : α → α) {dbg : Bool} {t : Tri} (hk : t.kind = .lower) {o : Orient} {m : SMat α}
    {i j : Nat} (hi : i < m.size) (hj : j < m.size) (h : ¬ Mutable t i j) {x : α}
    (hx : m.data[cellOf t o j m.size i m.size]? = some x) :
    m.hget conj dbg t o i j = .ok (conj x) := by
  have h2 := (other_iff t j i).2 (mutable_total t hk i j h).1
  simp [SMat.hget, check_true hi, check_true hj, not_other h, element_eq (fit_lower dbg t hk _ _) hj hi h2,
    rd_eq_ok.2 hx]

theorem hinv_implements (conj : α → α) (hc : ∀ x, conj (conj x) = x) (dbg : Bool) (t : Tri)
    (hk : t.kind = .lower) (o : Orient) (m : SMat α) (s : SSpec α) (h : HInv conj t o m s) :
    HImplements conj dbg t o m s := by
  obtain ⟨h1, h2, h3⟩ := h
  refine ⟨h2, ?_⟩
  intro i j hi hj
  by_cases hm : Mutable t i j
  · obtain ⟨x, e1, e2, e3⟩ := h3 i j hi hj hm
    refine ⟨x, by rw [hget_stored conj hk (by omega) (by omega) hm, rd_eq_ok, e1], e2, ?_⟩
    intro hne
    exact hget_mirror conj hk (by omega) (by omega) (mutable_antisymm t i j hm hne) e1
  · obtain ⟨hm', hne⟩ := mutable_total t hk i j hm
    obtain ⟨x, e1, e2, e3⟩ := h3 j i hj hi hm'
    refine ⟨conj x, hget_mirror conj hk (by omega) (by omega) hm e1, e3 hne.symm, ?_⟩
    intro _
    rw [hc, hget_stored conj hk (by omega) (by omega) hm', rd_eq_ok, e1]

theorem write_inv (conj : α → α) {t : Tri} {o : Orient} {m : SMat α} {s : SSpec α}
    (h : HInv conj t o m s) {i j : Nat} (hi : i < s.n) (hj : j < s.n) (hm : Mutable t i j) (v : α)
    (val' : Nat → Nat → Option α)
    (hv1 : val' i j = some v) (hv2 : i ≠ j → val' j i = some (conj v))
    (hv3 : ∀ a b, ¬ (a = i ∧ b = j) → ¬ (a = j ∧ b = i) → val' a b = s.val a b) :
    HInv conj t o { m with data := m.data.set (cellOf t o i m.size j m.size) v } { s with val := val' } := by
  obtain ⟨h1, h2, h3⟩ := h
  have hl : cellOf t o i m.size j m.size < m.data.length := by
    rw [h1]; exact cellOf_lt (by omega) (by omega) ((other_iff t i j).2 hm)
  refine ⟨by simpa [SWF] using h1, h2, ?_⟩
  intro a b ha hb hab
  simp only at ha hb ⊢
  by_cases hc : a = i ∧ b = j
  · obtain ⟨rfl, rfl⟩ := hc
    exact ⟨v, List.getElem?_set_self hl, by simp [hv1], fun hne => by simp [hv2 hne]⟩
  · obtain ⟨x, e1, e2, e3⟩ := h3 a b ha hb hab
    have hc' : ¬ (a = j ∧ b = i) := by
      rintro ⟨rfl, rfl⟩
      by_cases he : a = b
      · exact hc ⟨he, he.symm⟩
      · exact mutable_antisymm t a b hab he hm
    refine ⟨x, ?_, by rw [hv3 a b hc hc']; exact e2, ?_⟩
    · rw [List.getElem?_set_ne, e1]
      intro he
      have := cellOf_inj (show i < m.size by omega) (by omega) ((other_iff t i j).2 hm) (by omega) (by omega)
        ((other_iff t a b).2 hab) he
      exact hc ⟨this.1.symm, this.2.symm⟩
    · rw [hv3 b a (fun h => hc' h.symm) (fun h => hc h.symm)]; exact e3

theorem clear_inv [Zero α] (conj : α → α) (hc0 : conj 0 = 0) {t : Tri} {o : Orient} {m : SMat α} {s : SSpec α}
    (h : HInv conj t o m s) : HInv conj t o m.clear { s with val := fun _ _ => some 0 } := by
  obtain ⟨h1, h2, h3⟩ := h
  refine ⟨by simpa [SMat.clear, SWF] using h1, h2, ?_⟩
  intro a b ha hb hab
  obtain ⟨x, e1, _, _⟩ := h3 a b ha hb hab
  refine ⟨0, ?_, by simp, by simp [hc0]⟩
  simp only [SMat.clear, List.getElem?_map, e1, Option.map_some]

theorem fresh_inv (conj : α → α) (t : Tri) (o : Orient) (n : Nat) (d : List α) (h : d.length = psize t n n) :
    HInv conj t o ⟨n, d⟩ ⟨n, fun _ _ => none⟩ := by
  refine ⟨h, rfl, ?_⟩
  intro a b ha hb hab
  have hl : cellOf t o a n b n < d.length := by rw [h]; exact cellOf_lt ha hb ((other_iff t a b).2 hab)
  exact ⟨_, List.getElem?_eq_getElem hl, by simp, by simp⟩

theorem resize_inv (conj : α → α) (dbg : Bool) {t : Tri} (hk : t.kind = .lower) {o : Orient} (junk : Nat → α)
    {m : SMat α} {s : SSpec α} (h : HInv conj t o m s) (n : Nat) (p : Bool) :
    ∃ m', m.resize dbg t o junk n p = .ok m' ∧
      HInv conj t o m' ⟨n, fun a b => if p = true ∧ a < s.n ∧ b < s.n then s.val a b else none⟩ := by
  obtain ⟨h1, h2, h3⟩ := h
  have hf := fit_lower dbg t hk
  cases p with
  | false =>
    refine ⟨⟨n, Dense.arrayResize junk m.data (psize t n n)⟩, by simp [SMat.resize, packedSize_eq (hf n n)], ?_⟩
    simpa using fresh_inv conj t o n (Dense.arrayResize junk m.data (psize t n n)) (by
      unfold Dense.arrayResize
      split
      · symm; assumption
      · simp)
  | true =>
    obtain ⟨d, e1, e2, e3⟩ := resizeLoop_spec dbg t o m.size m.size m.data n n
      ((List.range (psize t n n)).map junk) (hf _ _) (hf _ _) h1 (by simp)
    refine ⟨⟨n, d⟩, by simp [SMat.resize, SMat.make, packedSize_eq (hf n n), e1], e2, rfl, ?_⟩
    intro a b ha hb hab
    simp only at ha hb ⊢
    by_cases hin : a < s.n ∧ b < s.n
    · obtain ⟨x, g1, g2, g3⟩ := h3 a b hin.1 hin.2 hab
      refine ⟨x, ?_, by simpa [hin] using g2, by simpa [hin] using g3⟩
      rw [e3 a b (by omega) (by omega) ((other_iff t a b).2 hab), g1]
    · have hl : cellOf t o a n b n < d.length := by rw [e2]; exact cellOf_lt ha hb ((other_iff t a b).2 hab)
      refine ⟨_, List.getElem?_eq_getElem hl, by simp [hin], ?_⟩
      rw [if_neg (by simp; omega)]; simp

/-! ## symmetric -/

theorem sset_eq {dbg : Bool} {t : Tri} (hk : t.kind = .lower) {o : Orient} {m : SMat α} (hw : SWF t m)
    {i j : Nat} {v : α} (hi : i < m.size) (hj : j < m.size) :
    ∃ a b, ((a = i ∧ b = j) ∨ (a = j ∧ b = i)) ∧ Mutable t a b ∧ m.set dbg t o i j v =
      .ok { m with data := m.data.set (cellOf t o a m.size b m.size) v } := by
  have hf := fit_lower dbg t hk m.size m.size
  by_cases hm : Mutable t i j
  · have h' := (other_iff t i j).2 hm
    have hl : cellOf t o i m.size j m.size < m.data.length := by rw [hw]; exact cellOf_lt hi hj h'
    exact ⟨i, j, by simp, hm, by simp [SMat.set, check_true hi, check_true hj, SMat.cell, h', element_eq hf hi hj h', wr_ok hl]⟩
  · have hm' := (mutable_total t hk i j hm).1
    have h' := (other_iff t j i).2 hm'
    have hl : cellOf t o j m.size i m.size < m.data.length := by rw [hw]; exact cellOf_lt hj hi h'
    exact ⟨j, i, by simp, hm', by simp [SMat.set, check_true hi, check_true hj, SMat.cell, not_other hm, element_eq hf hj hi h', wr_ok hl]⟩

theorem sget_eq_hget (dbg : Bool) (t : Tri) (o : Orient) (m : SMat α) (i j : Nat) :
    m.get dbg t o i j = m.hget id dbg t o i j := by
  unfold SMat.get SMat.hget SMat.cell
  cases h : check dbg (i < m.size) .badIndex with
  | error e => rfl
  | ok _ =>
    simp only [bind_ok]
    cases h : check dbg (j < m.size) .badIndex with
    | error e => rfl
    | ok _ =>
      simp only [bind_ok]
      split
      · rfl
      · cases h : element dbg t o j m.size i m.size with
        | error e => rfl
        | ok k =>
          simp only [bind_ok]
          cases rd dbg m.data k <;> rfl

theorem hinv_simplements (dbg : Bool) (t : Tri) (hk : t.kind = .lower) (o : Orient) (m : SMat α) (s : SSpec α)
    (h : HInv id t o m s) : SImplements dbg t o m s := by
  obtain ⟨h1, h2⟩ := hinv_implements id (fun _ => rfl) dbg t hk o m s h
  refine ⟨h1, fun i j hi hj => ?_⟩
  obtain ⟨v, e1, e2, e3⟩ := h2 i j hi hj
  refine ⟨⟨v, by rw [sget_eq_hget, e1], e2⟩, ?_⟩
  by_cases hij : i = j
  · rw [hij]
  · rw [sget_eq_hget, sget_eq_hget, e1, e3 hij]; rfl

theorem sstep_inv [Zero α] (dbg : Bool) (t : Tri) (hk : t.kind = .lower) (o : Orient) (junk : Nat → α) (m : SMat α)
    (s : SSpec α) (op : SOp α) (h : HInv id t o m s) (hl : slegal s op) :
    ∃ m', m.step dbg t o junk op = .ok m' ∧ HInv id t o m' (sstep s op) := by
  have wcase : ∀ i j v, i < s.n → j < s.n → ∃ m', m.set dbg t o i j v = .ok m' ∧ HInv id t o m'
      { s with val := fun a b => if (a = i ∧ b = j) ∨ (a = j ∧ b = i) then some v else s.val a b } := by
    intro i j v hi hj
    have hn := h.2.1
    obtain ⟨a, b, hab, hm, e⟩ := sset_eq (dbg := dbg) hk (o := o) h.1 (i := i) (j := j) (v := v) (by omega) (by omega)
    refine ⟨_, e, ?_⟩
    apply write_inv id h (by rcases hab with ⟨rfl, rfl⟩ | ⟨rfl, rfl⟩ <;> assumption)
      (by rcases hab with ⟨rfl, rfl⟩ | ⟨rfl, rfl⟩ <;> assumption) hm
    · rcases hab with ⟨rfl, rfl⟩ | ⟨rfl, rfl⟩ <;> simp
    · rcases hab with ⟨rfl, rfl⟩ | ⟨rfl, rfl⟩ <;> simp
    · intro x y h1 h2
      rcases hab with ⟨rfl, rfl⟩ | ⟨rfl, rfl⟩ <;> rw [if_neg] <;> tauto
  cases op with
  | insert i j v => exact wcase i j v hl.1 hl.2
  | assign i j v => exact wcase i j v hl.1 hl.2
  | erase i j => exact wcase i j 0 hl.1 hl.2
  | clear => exact ⟨_, rfl, clear_inv id rfl h⟩
  | resize n p =>
    obtain ⟨m', e1, e2⟩ := resize_inv id dbg hk junk h n p
    refine ⟨m', e1, ?_⟩
    cases p <;> simpa [sstep] using e2

/-- **C09**.  From any symmetric_matrix (lower or upper, either orientation) implementing an abstract one, after
any history of legal operations nothing has faulted, elements hold the last value written to (i,j) or (j,i) —
nothing else changed — and m(i,j) = m(j,i) for all i, j. -/
theorem C09_symmetric_history [Zero α] (dbg : Bool) (t : Tri) (hk : t.kind = .lower) (o : Orient) (n : Nat)
    (junk0 : Nat → α) (ops : List (SOp α × (Nat → α))) (hl : slegalRun ⟨n, fun _ _ => none⟩ ops) :
    ∃ m m', SMat.make dbg t junk0 n = .ok m ∧ m.run dbg t o ops = .ok m' ∧
      SImplements dbg t o m' (srun ⟨n, fun _ _ => none⟩ ops) := by
  have main : ∀ (ops : List (SOp α × (Nat → α))) (m : SMat α) (s : SSpec α), HInv id t o m s → slegalRun s ops →
      ∃ m', m.run dbg t o ops = .ok m' ∧ HInv id t o m' (srun s ops) := by
    intro ops
    induction ops with
    | nil => intro m s h _; exact ⟨m, rfl, h⟩
    | cons x ops ih =>
      obtain ⟨op, junk⟩ := x
      intro m s h hl
      obtain ⟨m1, e1, h1⟩ := sstep_inv dbg t hk o junk m s op h hl.1
      obtain ⟨m2, e2, h2⟩ := ih m1 _ h1 hl.2
      exact ⟨m2, by simp [SMat.run, e1, e2], h2⟩
  obtain ⟨m', e, hi⟩ := main ops ⟨n, (List.range (psize t n n)).map junk0⟩ _
    (fresh_inv id t o n _ (by simp)) hl
  exact ⟨_, m', by simp [SMat.make, packedSize_eq (fit_lower dbg t hk n n)], e, hinv_simplements dbg t hk o m' _ hi⟩

-- Non-vacuity
example : ∃ m : SMat Int, (⟨2, [1, 2, 3]⟩ : SMat Int).run true ⟨.lower, true⟩ .row
    [(.insert 1 0 8, fun _ => 0), (.resize 3 true, fun _ => 5), (.erase 2 1, fun _ => 0)] = .ok m ∧
    m.get true ⟨.lower, true⟩ .row 0 1 = .ok 8 ∧ m.get true ⟨.lower, true⟩ .row 1 0 = .ok 8 ∧
    m.get true ⟨.lower, true⟩ .row 1 2 = .ok 0 ∧ m.get true ⟨.lower, true⟩ .row 2 2 = .ok 5 :=
  ⟨⟨3, [1, 8, 5, 3, 0, 5]⟩, by decide, by decide, by decide, by decide, by decide⟩
example : slegalRun (⟨2, fun _ _ => none⟩ : SSpec Int)
    [(.insert 1 0 8, fun _ => 0), (.resize 3 true, fun _ => 5), (.erase 2 1, fun _ => 0)] := by
  simp [slegalRun, slegal, sstep]

/-! ## hermitian -/

theorem hinsert_inv (conj : α → α) (hc : ∀ x, conj (conj x) = x) (dbg : Bool) (t : Tri)
    (hk : t.kind = .lower) (o : Orient) (m : SMat α) (s : SSpec α) (h : HInv conj t o m s) (i j : Nat) (v : α) (hi : i < s.n) (hj : j < s.n) :
    ∃ m', m.hinsert conj dbg t o i j v = .ok m' ∧ HInv conj t o m' { s with val := fun a b => if a = i ∧ b = j then some v else if a = j ∧ b = i then some (conj v) else s.val a b } := by
  have hn := h.2.1
  have hf := fit_lower dbg t hk m.size m.size
  have hlen : ∀ i j, i < s.n → j < s.n → Mutable t i j → cellOf t o i m.size j m.size < m.data.length := by
    intro i j hi hj hm; rw [h.1]; exact cellOf_lt (by omega) (by omega) ((other_iff t i j).2 hm)
  have hi' : i < m.size := by omega
  have hj' : j < m.size := by omega
  by_cases hm : Mutable t i j
  · have h' := (other_iff t i j).2 hm
    refine ⟨{ m with data := m.data.set (cellOf t o i m.size j m.size) v }, ?_, ?_⟩
    · simp [SMat.hinsert, check_true hi', check_true hj', h', element_eq hf hi' hj' h', wr_ok (hlen i j hi hj hm)]
    · apply write_inv conj h hi hj hm
      · simp
      · intro hne; rw [if_neg (by tauto)]; simp
      · intro a b h1 h2; simp [h1, h2]
  · obtain ⟨hm', hne⟩ := mutable_total t hk i j hm
    have h' := (other_iff t j i).2 hm'
    refine ⟨{ m with data := m.data.set (cellOf t o j m.size i m.size) (conj v) }, ?_, ?_⟩
    · simp [SMat.hinsert, check_true hi', check_true hj', not_other hm, element_eq hf hj' hi' h', wr_ok (hlen j i hj hi hm')]
    · apply write_inv conj h hj hi hm'
      · rw [if_neg (by tauto)]; simp
      · intro _; simp [hc]
      · intro a b h1 h2; simp [h1, h2]

theorem hload_eq (conj : α → α) {dbg : Bool} {t : Tri} {o : Orient} {m : SMat α} {i j : Nat} (hi : i < m.size) (hj : j < m.size) :
    m.hload conj dbg t o i j = m.hget conj dbg t o i j := by
  simp only [SMat.hload, SMat.hget, check_true hi, check_true hj, bind_ok]

theorem hassign_eq (conj : α → α) {dbg : Bool} {t : Tri} {o : Orient} {m : SMat α} {i j : Nat} {v w : α} (hi : i < m.size) (hj : j < m.size)
    (hg : m.hget conj dbg t o i j = .ok w) : m.hassign conj dbg t o i j v = m.hinsert conj dbg t o i j v := by
  simp only [SMat.hassign, HCont.exec, HCont.ref, SMat.hcont, hload_eq conj hi hj, hg, bind_ok, pure_eq_ok, HProxy.set, HProxy.destroy, if_true]

theorem hstep_inv [Zero α] (conj : α → α) (hc : ∀ x, conj (conj x) = x) (hc0 : conj 0 = 0) (dbg : Bool) (t : Tri)
    (hk : t.kind = .lower) (o : Orient) (junk : Nat → α) (m : SMat α)
    (s : SSpec α) (op : SOp α) (h : HInv conj t o m s) (hl : hlegal false t s op) :
    ∃ m', m.hstep conj dbg t o junk op = .ok m' ∧ HInv conj t o m' (hstep conj s op) := by
  have hn := h.2.1
  have hf := fit_lower dbg t hk m.size m.size
  have hlen : ∀ i j, i < s.n → j < s.n → Mutable t i j → cellOf t o i m.size j m.size < m.data.length := by
    intro i j hi hj hm; rw [h.1]; exact cellOf_lt (by omega) (by omega) ((other_iff t i j).2 hm)
  cases op with
  | insert i j v => exact hinsert_inv conj hc dbg t hk o m s h i j v hl.1 hl.2
  | assign i j v =>
    obtain ⟨w, e, _, _⟩ := (hinv_implements conj hc dbg t hk o m s h).2 i j hl.1 hl.2
    have hi' : i < m.size := by rw [hn]; exact hl.1
    have hj' : j < m.size := by rw [hn]; exact hl.2
    simp only [SMat.hstep, hassign_eq conj hi' hj' e]
    exact hinsert_inv conj hc dbg t hk o m s h i j v hl.1 hl.2
  | erase i j =>
    obtain ⟨hi, hj, hm⟩ := hl
    have hm : Mutable t i j := by simpa using hm
    have hi' : i < m.size := by omega
    have hj' : j < m.size := by omega
    have h' := (other_iff t i j).2 hm
    refine ⟨{ m with data := m.data.set (cellOf t o i m.size j m.size) 0 }, ?_, ?_⟩
    · simp [SMat.hstep, SMat.herase, check_true hi', check_true hj', element_eq hf hi' hj' h', wr_ok (hlen i j hi hj hm)]
    · apply write_inv conj h hi hj hm
      · simp
      · intro hne; simp [hc0]
      · intro a b h1 h2; simp [h1, h2]
  | clear => exact ⟨_, rfl, clear_inv conj hc0 h⟩
  | resize n p =>
    obtain ⟨m', e1, e2⟩ := resize_inv conj dbg hk junk h n p
    refine ⟨m', e1, ?_⟩
    cases p <;> simpa [hstep] using e2

/-- **C10** (proved part).  From a new hermitian_matrix, after any history of insert_element and element
assignment anywhere, erase_element in the stored triangle, clear and resize, nothing has faulted, each element holds the
last value written (conjugated when written through its mirror), and m(j,i) = conj m(i,j) off the diagonal.
Missing: erase_element outside the stored triangle, refuted below. -/
theorem C10_hermitian_history_partial [Zero α] (conj : α → α) (hc : ∀ x, conj (conj x) = x) (hc0 : conj 0 = 0)
    (dbg : Bool) (t : Tri) (hk : t.kind = .lower) (o : Orient) (n : Nat)
    (junk0 : Nat → α) (ops : List (SOp α × (Nat → α))) (hl : hlegalRun conj false t ⟨n, fun _ _ => none⟩ ops) :
    ∃ m m', SMat.make dbg t junk0 n = .ok m ∧ m.hrun conj dbg t o ops = .ok m' ∧
      HImplements conj dbg t o m' (hrun conj ⟨n, fun _ _ => none⟩ ops) := by
  have main : ∀ (ops : List (SOp α × (Nat → α))) (m : SMat α) (s : SSpec α), HInv conj t o m s →
      hlegalRun conj false t s ops →
      ∃ m', m.hrun conj dbg t o ops = .ok m' ∧ HInv conj t o m' (hrun conj s ops) := by
    intro ops
    induction ops with
    | nil => intro m s h _; exact ⟨m, rfl, h⟩
    | cons x ops ih =>
      obtain ⟨op, junk⟩ := x
      intro m s h hl
      obtain ⟨m1, e1, h1⟩ := hstep_inv conj hc hc0 dbg t hk o junk m s op h hl.1
      obtain ⟨m2, e2, h2⟩ := ih m1 _ h1 hl.2
      exact ⟨m2, by simp [SMat.hrun, e1, e2], h2⟩
  obtain ⟨m', e, hi⟩ := main ops ⟨n, (List.range (psize t n n)).map junk0⟩ _
    (fresh_inv conj t o n _ (by simp)) hl
  exact ⟨_, m', by simp [SMat.make, packedSize_eq (fit_lower dbg t hk n n)], e,
    hinv_implements conj hc dbg t hk o m' _ hi⟩

/-- **C10** refuted part: erasing a valid position outside the stored triangle raises `bad_index` with checks on,
and in release silently zeroes a different element: a 3×3 lower row-major matrix loses m(1,1) when m(0,2) is
erased, while m(0,2) keeps its value. -/
theorem C10_erase_refuted :
    (∃ m : SMat Int, m.hrun id true ⟨.lower, false⟩ .row [(.insert 0 2 7, fun _ => 0), (.erase 0 2, fun _ => 0)]
      = .error .badIndex ∧ hlegalRun id true ⟨.lower, false⟩ ⟨3, fun _ _ => none⟩
        [(.insert 0 2 7, fun _ => 0), (.erase 0 2, fun _ => (0 : Int))] ∧ m.size = 3 ∧ SWF ⟨.lower, false⟩ m) ∧
    (∃ m m' : SMat Int, m.herase false ⟨.lower, false⟩ .row 0 2 = .ok m' ∧ m.size = 3 ∧ SWF ⟨.lower, false⟩ m ∧
      m'.hget id false ⟨.lower, false⟩ .row 0 2 = .ok 4 ∧ m.hget id false ⟨.lower, false⟩ .row 1 1 = .ok 3 ∧
      m'.hget id false ⟨.lower, false⟩ .row 1 1 = .ok 0) := by
  refine ⟨⟨⟨3, [1, 2, 3, 4, 5, 6]⟩, by decide, by simp [hlegalRun, hlegal, hstep], rfl, rfl⟩,
    ⟨3, [1, 2, 3, 4, 5, 6]⟩, ⟨3, [1, 2, 0, 4, 5, 6]⟩, by decide, rfl, rfl, by decide, by decide, by decide⟩

/-- **C10** (rejection): with BOOST_UBLAS_NO_ELEMENT_PROXIES, `m (i, j) = v` outside the stored triangle raises `bad_index` in every build mode. -/
theorem C10_assign_outside_rejected (dbg : Bool) (t : Tri) (o : Orient) (m : SMat α) (i j : Nat) (v : α)
    (h : ¬ Mutable t i j) : m.hassignLoose dbg t o i j v = .error .badIndex := by
  simp [SMat.hassignLoose, not_other h]; rfl

/-- **C10**: with BOOST_UBLAS_NO_ELEMENT_PROXIES, `m (i, j) = v` inside the stored triangle is `insert_element (i, j, v)` (C10_hermitian_history_partial). -/
theorem C10_assign_inside (conj : α → α) (dbg : Bool) (t : Tri) (o : Orient) (m : SMat α) (i j : Nat) (v : α)
    (h : Mutable t i j) : m.hassignLoose dbg t o i j v = m.hinsert conj dbg t o i j v := by
  have ho : other t i j = true := (other_iff t i j).2 h
  simp only [SMat.hassignLoose, SMat.hinsert, ho, check_True, bind_ok, not_true_eq_false, if_false, if_true]

end Ublas
