import Verif.Lemmas.CooPar
import Verif.Spec.Coo
import Mathlib.Data.List.Nodup
/-! # C21, C22, C23, C26, C27 (coordinate), C28 (coordinate), C63 -/
namespace Ublas
open Search Coo SparseSpec CooSpec
variable {κ α ι : Type} [DecidableEq κ] [AddCommMonoid α]
namespace Coo

/-- How indices are turned into keys. -/
structure KeyMap (P : CooPar κ α) (kb : ι → κ) (lt : ι → ι → Prop) (inside : ι → Prop) : Prop where
  inj : ∀ i j, kb i = kb j → i = j
  ord : ∀ i j, lt i j ↔ P.lt (kb i) (kb j) = true
  range : ∀ i, inside i → P.inRange (kb i) = true
  pos : ∀ i, inside i → 0 < P.minCap

def Rel (P : CooPar κ α) (kb : ι → κ) (inside : ι → Prop) (v : Coo κ α) (s : State ι α) : Prop :=
  ∃ A, Inv P v A ∧ (∀ i, s.val i = collect A (kb i)) ∧ (∀ p ∈ A, ∃ i, inside i ∧ p.1 = kb i) ∧ s.sorted = v.sorted

/-- Collections with the same partial function mention the same keys. -/
theorem keys_inside {kb : ι → κ} {inside : ι → Prop} {A B : List (κ × α)} (hA : ∀ p ∈ A, ∃ i, inside i ∧ p.1 = kb i)
    (h : ∀ k, collect B k ≠ none → collect A k ≠ none) : ∀ p ∈ B, ∃ i, inside i ∧ p.1 = kb i := by
  intro p hp
  have : collect B p.1 ≠ none := by
    rw [Ne, collect_eq_none, not_not]; exact List.mem_map_of_mem hp
  have := h _ this
  rw [Ne, collect_eq_none, not_not] at this
  obtain ⟨q, hq, e⟩ := List.mem_map.1 this
  obtain ⟨i, h1, h2⟩ := hA q hq
  exact ⟨i, h1, by rw [← e, h2]⟩

theorem atMost_length {P : CooPar κ α} (ho : KeyOrd P.lt) {kb : ι → κ} {inside : ι → Prop} {B : List (κ × α)} {val : ι → Option α}
    (hB : ∀ p ∈ B, ∃ i, inside i ∧ p.1 = kb i) (hv : ∀ i, val i = collect B (kb i)) (hs : Strict P.lt B) {n : Nat} (ha : AtMost n val) :
    B.length ≤ n := by
  by_cases hne : B = []
  · subst hne; simp
  obtain ⟨p0, B0, rfl⟩ := List.exists_cons_of_ne_nil hne
  obtain ⟨i0, _, _⟩ := hB p0 (by simp)
  haveI : Nonempty ι := ⟨i0⟩
  generalize p0 :: B0 = B at *
  choose! g hg1 hg2 using hB
  have hnd : (B.map g).Nodup := by
    refine List.Nodup.map_on ?_ ?_
    · intro p hp q hq e
      have : p.1 = q.1 := by rw [hg2 p hp, hg2 q hq, e]
      obtain ⟨a, ha, rfl⟩ := List.mem_iff_getElem.1 hp
      obtain ⟨b, hb, rfl⟩ := List.mem_iff_getElem.1 hq
      have hpw := List.pairwise_iff_getElem.1 hs
      rcases Nat.lt_trichotomy a b with c | c | c
      · have := hpw a b ha hb c; rw [‹B[a].1 = B[b].1›, ho.irrefl] at this; simp at this
      · subst c; rfl
      · have := hpw b a hb ha c; rw [‹B[a].1 = B[b].1›, ho.irrefl] at this; simp at this
    · refine List.Pairwise.imp ?_ hs
      intro p q hpq e
      rw [e, ho.irrefl] at hpq; simp at hpq
  have := ha (B.map g) hnd (by
    intro i hi
    obtain ⟨p, hp, rfl⟩ := List.mem_map.1 hi
    rw [hv, ← hg2 p hp, Ne, collect_eq_none, not_not]
    exact List.mem_map_of_mem hp)
  simpa using this

theorem collect_snoc (A : List (κ × α)) (k : κ) (t : α) (j : κ) :
    collect (A ++ [(k, t)]) j = if j = k then some ((collect A k).getD 0 + t) else collect A j := by
  by_cases hj : j = k
  · subst hj
    rw [if_pos rfl]
    unfold collect
    rw [if_pos (by simp)]
    by_cases hm : j ∈ A.map (·.1)
    · rw [if_pos hm]; simp
    · rw [if_neg hm]
      have : A.filter (fun p => decide (p.1 = j)) = [] := by
        rw [List.filter_eq_nil_iff]; intro p hp; simp only [decide_eq_true_eq]
        intro e; exact hm (e ▸ List.mem_map_of_mem hp)
      rw [List.filter_append, this]; simp
  · rw [if_neg hj]
    have hk : ¬ k = j := fun e => hj e.symm
    unfold collect
    have hf : (A ++ [(k, t)]).filter (fun p => decide (p.1 = j)) = A.filter (fun p => decide (p.1 = j)) := by simp [hk]
    rw [hf]
    by_cases hm : j ∈ A.map (·.1)
    · rw [if_pos hm, if_pos (by rw [List.map_append]; exact List.mem_append_left _ hm)]
    · rw [if_neg hm, if_neg (by rw [List.map_append, List.mem_append]; simpa [hj] using hm)]

/-- Every legal operation succeeds in both build modes and has the specified effect. -/
theorem step_rel {P : CooPar κ α} (hP : ParOk P) {kb : ι → κ} {lt : ι → ι → Prop} {inside : ι → Prop} (hK : KeyMap P kb lt inside)
    (dbg : Bool) (junk : Junk κ α) (v : Coo κ α) (s : State ι α) (op : CooOp ι α) (h : Rel P kb inside v s)
    (hl : legal P.sortAlways lt inside s op) :
    ∃ v', Coo.step dbg P kb 0 junk v op = .ok v' ∧ Rel P kb inside v' (CooSpec.step lt s op) := by
  obtain ⟨A, hA, hv, hin, hso⟩ := h
  have kbeq : ∀ i j, kb i = kb j ↔ i = j := fun i j => ⟨hK.inj i j, fun e => by rw [e]⟩
  cases op with
  | modify i f =>
    obtain ⟨v', B, e, h1, h2, h3⟩ := modify_spec hP dbg 0 junk hA (hK.pos i hl) (kb i) f (hK.range i hl)
    refine ⟨v', e, B, h1, ?_, ?_, ?_⟩
    · intro j; simp only [CooSpec.step, h2, kbeq, hv]; by_cases c : j = i <;> simp [c, kbeq]
    · intro p hp
      have : collect B p.1 ≠ none := by rw [Ne, collect_eq_none, not_not]; exact List.mem_map_of_mem hp
      rw [h2] at this
      by_cases hc : p.1 = kb i
      · exact ⟨i, hl, hc⟩
      · rw [if_neg hc, Ne, collect_eq_none, not_not] at this
        obtain ⟨q, hq, e⟩ := List.mem_map.1 this
        obtain ⟨j, a, b⟩ := hin q hq
        exact ⟨j, a, by rw [← e, b]⟩
    · simp only [CooSpec.step, h3, hv]
  | insert i t =>
    obtain ⟨v', B, e, h1, h2, h3⟩ := insert_spec hP dbg 0 junk hA (hK.pos i hl.1) (kb i) t (hK.range i hl.1) (by rw [← hv]; exact hl.2)
    refine ⟨v', e, _, h1, ?_, ?_, by simp only [CooSpec.step, h3]⟩
    · intro j
      rw [collect_snoc, h2, ← hv, ← hv, hl.2]
      simp only [CooSpec.step, kbeq]; by_cases c : j = i <;> simp [c, kbeq]
    · intro p hp
      rcases List.mem_append.1 hp with hp | hp
      · exact keys_inside hin (by rw [h2]; exact fun _ h => h) p hp
      · simp at hp; subst hp; exact ⟨i, hl.1, rfl⟩
  | append i t =>
    obtain ⟨v', B, e, h1, h2, h3⟩ := append_spec hP dbg 0 junk hA (hK.pos i hl) (kb i) t (hK.range i hl)
    refine ⟨v', e, _, h1, ?_, ?_, by simp only [CooSpec.step, h3]⟩
    · intro j
      rw [collect_snoc, h2, ← hv, ← hv]
      simp only [CooSpec.step, kbeq]; by_cases c : j = i <;> simp [c, hv, kbeq]
    · intro p hp
      rcases List.mem_append.1 hp with hp | hp
      · exact keys_inside hin (by rw [h2]; exact fun _ h => h) p hp
      · simp at hp; subst hp; exact ⟨i, hl, rfl⟩
  | erase i =>
    obtain ⟨v', B, e, h1, h2, h3⟩ := erase_spec hP dbg hA (kb i)
    refine ⟨v', e, B, h1, ?_, ?_, by simp only [CooSpec.step, h3]⟩
    · intro j; simp only [CooSpec.step, h2, kbeq, hv]; by_cases c : j = i <;> simp [c, kbeq]
    · refine keys_inside hin ?_
      intro k hk; rw [h2] at hk; split at hk
      · exact absurd rfl hk
      · exact hk
  | clear =>
    obtain ⟨v', e, h1, h2⟩ := clear_spec dbg hA
    exact ⟨v', e, [], h1, by intro j; simp only [CooSpec.step, collect_nil], by simp, by simp only [CooSpec.step, h2]⟩
  | reserve n p =>
    cases p with
    | true =>
      obtain ⟨v', B, e, h1, h2, h3, h4, h5, h6⟩ := reserveTrue_spec hP dbg 0 junk hA n
      have hB : ∀ p ∈ B, ∃ i, inside i ∧ p.1 = kb i := keys_inside hin (by rw [h4]; exact fun _ h => h)
      have hvB : ∀ i, s.val i = collect B (kb i) := by intro i; rw [hv, h4]
      have hlen := atMost_length hP.ord hB hvB h3 (show AtMost n s.val from hl)
      rw [List.take_of_length_le (by unfold restrictCapacity; omega)] at h1
      exact ⟨v', e, B, h1, hvB, hB, by simp only [CooSpec.step, h2]⟩
    | false =>
      obtain ⟨v', e, h1, h2⟩ := reserveFalse_spec hP dbg 0 junk hA n (by rw [← hso]; exact hl)
      exact ⟨v', e, [], h1, by intro j; simp only [CooSpec.step, collect_nil], by simp, by simp only [CooSpec.step, h2]⟩
  | pushBack i t =>
    obtain ⟨hi, hs, hlast⟩ := hl
    obtain ⟨v', B, e, h1, h2, h3⟩ := pushBack_spec hP dbg 0 junk hA (hK.pos i hi) (kb i) t (hK.range i hi) (by rw [← hso]; exact hs) (by
      intro k hk
      rw [Ne, collect_eq_none, not_not] at hk
      obtain ⟨p, hp, e⟩ := List.mem_map.1 hk
      obtain ⟨j, _, e2⟩ := hin p hp
      rw [← e, e2, ← hK.ord]
      refine hlast j ?_
      rw [hv, Ne, collect_eq_none, not_not, ← e2]; exact List.mem_map_of_mem hp)
    refine ⟨v', e, B, h1, ?_, ?_, by simp only [CooSpec.step, h3]⟩
    · intro j; simp only [CooSpec.step, h2, kbeq, hv]; by_cases c : j = i <;> simp [c, kbeq]
    · intro p hp
      have : collect B p.1 ≠ none := by rw [Ne, collect_eq_none, not_not]; exact List.mem_map_of_mem hp
      rw [h2] at this
      by_cases hc : p.1 = kb i
      · exact ⟨i, hi, hc⟩
      · rw [if_neg hc, Ne, collect_eq_none, not_not] at this
        obtain ⟨q, hq, e⟩ := List.mem_map.1 this
        obtain ⟨j, a, b⟩ := hin q hq
        exact ⟨j, a, by rw [← e, b]⟩
  | popBack =>
    obtain ⟨hs, i, j, hij, hvi, hvj⟩ := hl
    have h2 : 2 ≤ A.length := by
      rw [hv, Ne, collect_eq_none, not_not] at hvi hvj
      match A, hvi, hvj with
      | [], hvi, _ => simp at hvi
      | [p], hvi, hvj =>
        simp at hvi hvj
        exact absurd (hK.inj i j (by rw [hvi, hvj])) hij
      | _ :: _ :: _, _, _ => simp
    obtain ⟨v', B, k, w, e, h1, h3, h4, h5, h6, h7⟩ := popBack_spec hP dbg hA (by rw [← hso]; exact hs) h2
    obtain ⟨m, hm, hkm⟩ := hin (k, w) (by rw [h3]; simp)
    simp only at hkm
    have hlast : ∀ j, CooSpec.IsLast lt s.val j ↔ j = m := by
      intro j
      constructor
      · rintro ⟨a, b⟩
        have ham : s.val m ≠ none := by rw [hv, ← hkm, h5]; simp
        rcases b m ham with c | c
        · exact c.symm
        · have hj := h6 (kb j) (by rw [← hv]; exact a)
          rw [hkm] at hj
          rcases hj with d | d
          · exact hK.inj _ _ d
          · have := (hK.ord m j).1 c
            rw [hP.ord.asymm this] at d; simp at d
      · rintro rfl
        refine ⟨by rw [hv, ← hkm, h5]; simp, ?_⟩
        intro q hq
        rcases h6 (kb q) (by rw [← hv]; exact hq) with d | d
        · exact Or.inl (hK.inj _ _ (by rw [d, hkm]))
        · exact Or.inr ((hK.ord _ _).2 (by rw [← hkm]; exact d))
    refine ⟨v', e, B, h1, ?_, ?_, by simp only [CooSpec.step, h4]⟩
    · intro j
      simp only [CooSpec.step]
      rw [h7]
      by_cases c : j = m
      · rw [if_pos ((hlast j).2 c), if_pos (by rw [c, hkm])]
      · rw [if_neg (fun d => c ((hlast j).1 d)), if_neg (by rw [hkm, kbeq]; exact c), hv]
    · intro p hp; exact hin p (by rw [h3]; exact List.mem_append_left _ hp)
  | sort =>
    obtain ⟨v', B, e, h1, h2, h3, h4, h5⟩ := sort_spec hP dbg hA
    exact ⟨v', e, B, h1, by intro j; simp only [CooSpec.step, h3, hv], keys_inside hin (by rw [h3]; exact fun _ h => h),
      by simp only [CooSpec.step, h2]⟩

theorem Rel.get {P : CooPar κ α} (hP : ParOk P) {kb : ι → κ} {inside : ι → Prop} (dbg : Bool) {v : Coo κ α} {s : State ι α}
    (h : Rel P kb inside v s) (i : ι) :
    ∃ v', v.get dbg P 0 (kb i) = .ok (v', (s.val i).getD 0) ∧ Rel P kb inside v' ⟨s.val, true⟩ := by
  obtain ⟨A, hA, hv, hin, hso⟩ := h
  obtain ⟨v', B, e, h1, h2, h3⟩ := get_spec hP dbg 0 hA (kb i)
  exact ⟨v', by rw [e, hv], B, h1, by intro j; simp only [hv, h3], keys_inside hin (by rw [h3]; exact fun _ h => h), h2.symm⟩


/-! ## coordinate_vector -/
end Coo

namespace CoordVec

/-- `std::sort` on records compared by index. -/
abbrev Sorts (srt : List (Nat × α) → List (Nat × α)) : Prop := SortOk (fun a b : Nat => decide (a < b)) srt

def Inv (srt : List (Nat × α) → List (Nat × α)) (full : Bool) (IB : Nat) (v : CoordVec α) (s : VState α) : Prop :=
  v.size = s.size ∧ Coo.Rel (par srt full IB s.size) (fun i => i + IB) (· < s.size) v.coo s.st

theorem keyMap (srt : List (Nat × α) → List (Nat × α)) (full : Bool) (IB size : Nat) :
    Coo.KeyMap (par srt full IB size) (fun i => i + IB) (· < ·) (· < size) :=
  { inj := by intro i j h; exact Nat.add_right_cancel h
    ord := by intro i j; simp [par]
    range := by intro i h; simpa [par] using h
    pos := by intro i _; simp [par] }

theorem resizeTrue_spec (srt : List (Nat × α) → List (Nat × α)) (hsrt : Sorts srt) (full dbg : Bool) (IB : Nat) (junk : Coo.Junk Nat α)
    (v : CoordVec α) (s : VState α) (h : Inv srt full IB v s) (n : Nat) :
    ∃ v', v.resize srt full dbg IB 0 junk n true = .ok v' ∧ Inv srt full IB v' (CooSpec.vstep s (.resize n true)) := by
  obtain ⟨hsz, A, hA, hv, hin, hso⟩ := h
  have hP := parOk srt hsrt full IB s.size
  obtain ⟨c, B, e, h1, h2, h3, h4, h5⟩ := sort_spec hP dbg hA
  have hst : Strict (fun a b : Nat => decide (a < b)) B := h1.strictAll h2
  have hB := keys_inside (B := B) hin (by rw [h3]; exact fun _ h => h)
  have hcap : Coo.restrictCapacity (par srt full IB n) c.cap = c.cap := by
    have := h1.capMin; simp only [par] at this; simp only [Coo.restrictCapacity, par]; omega
  -- the records with unbiased indices
  have hBi : ∀ (m : Nat) (hm : m < B.length), IB ≤ B[m].1 := by
    intro m hm
    obtain ⟨i, _, e⟩ := hB _ (List.getElem_mem hm); omega
  have hrep : Assoc.Rep (B.map (fun p => (p.1 - IB, p.2))) (fun i => collect B (i + IB)) := by
    constructor
    · rw [List.pairwise_map]
      refine List.pairwise_iff_getElem.2 ?_
      intro i j hi hj hij
      have := List.pairwise_iff_getElem.1 hst i j hi hj hij
      have a := hBi i hi; have b := hBi j hj
      simp only [decide_eq_true_eq] at this
      simp only; omega
    · intro i w
      rw [collect_mem_strict natOrd hst]
      constructor
      · intro hm; exact List.mem_map.2 ⟨_, hm, by simp⟩
      · intro hm
        obtain ⟨p, hp, e⟩ := List.mem_map.1 hm
        obtain ⟨m, hm, rfl⟩ := List.mem_iff_getElem.1 hp
        have := hBi m hm
        simp only [Prod.mk.injEq] at e
        have e1 : i + IB = B[m].1 := by omega
        rw [e1, ← e.2]; exact hp
  have hfl := h1.fill
  obtain ⟨g, g1, g2, g3, g4⟩ := CVec.shrink_spec dbg IB n (resizeInit c.idx c.cap 0) _ hrep (min c.cap c.filled)
    (by rw [List.length_map, h1.len]; omega) (by
      intro m hm
      have hm' : m < B.length := by rw [h1.len]; omega
      rw [List.getElem?_map, List.getElem?_eq_getElem hm']
      have ht := CVec.take_resizeInit c.idx c.cap 0 c.filled h1.fill (by rw [h1.idxLen]; exact h1.fill)
      have := congrArg (fun l => l[m]?) ht
      simp only [List.getElem?_take] at this
      rw [if_pos (by omega), if_pos (by omega), h1.holds.idxAt hm'] at this
      rw [this]
      have := hBi m hm'
      simp; omega)
  have hmin : min c.cap c.filled = c.filled := by omega
  rw [hmin] at g1 g2 g4
  have hgl : (B.take g).length = g := by rw [List.length_take, h1.len]; omega
  have hr : Coo.Inv (par srt full IB n) ⟨c.cap, g, g, c.sorted, resizeInit c.idx c.cap 0, resizeInit c.val c.cap 0⟩ (B.take g) :=
    { idxLen := CVec.length_resizeInit _ _ _, valLen := CVec.length_resizeInit _ _ _, len := hgl
      holds := by
        constructor
        · simp only
          rw [hgl, CVec.take_resizeInit _ _ _ _ (by omega) (by rw [h1.idxLen]; omega), List.map_take, ← h1.holds.1, List.take_take,
            Nat.min_eq_left (by rw [h1.len]; omega)]
        · simp only
          rw [hgl, CVec.take_resizeInit _ _ _ _ (by omega) (by rw [h1.valLen]; omega), List.map_take, ← h1.holds.2, List.take_take,
            Nat.min_eq_left (by rw [h1.len]; omega)]
      sfLe := Nat.le_refl _, sorted := by simp [h2]
      strict := (List.Pairwise.sublist (List.take_sublist _ _) hst).sublist (List.take_sublist _ _)
      range := by
        intro p hp
        have := g3 (p.1 - IB, p.2) (by rw [← List.map_take]; exact List.mem_map.2 ⟨p, hp, rfl⟩)
        simpa [par] using this
      capMin := h1.capMin }
  refine ⟨⟨n, _⟩, ?_, rfl, B.take g, hr, ?_, ?_, ?_⟩
  · unfold CoordVec.resize
    rw [if_pos rfl, hsz, e]
    simp only [bind_ok, if_true, hcap, hmin, g1, hr.invariants dbg]
  · intro i
    simp only [CooSpec.vstep]
    rw [hv, ← h3]
    by_cases hi : i < n
    · rw [if_pos hi]
      cases hc : collect B (i + IB) with
      | none =>
        rw [collect_eq_none] at hc
        symm; rw [collect_eq_none]
        intro hm; exact hc (by rw [List.map_take] at hm; exact List.mem_of_mem_take hm)
      | some w =>
        symm
        rw [collect_mem_strict natOrd (List.Pairwise.sublist (List.take_sublist _ _) hst)]
        rw [collect_mem_strict natOrd hst] at hc
        rw [← List.take_append_drop g B] at hc
        rcases List.mem_append.1 hc with d | d
        · exact d
        · obtain ⟨m, hm, hme⟩ := List.mem_iff_getElem.1 d
          rw [List.getElem_drop] at hme
          simp only [List.length_drop] at hm
          have := g4 (g + m) (i, w) (by omega) (by rw [← h1.len]; omega) (by
            rw [List.getElem?_map, List.getElem?_eq_getElem (by omega), hme]; simp)
          simp only at this; omega
    · rw [if_neg hi]
      symm; rw [collect_eq_none]
      intro hm
      obtain ⟨p, hp, e⟩ := List.mem_map.1 hm
      have := g3 (p.1 - IB, p.2) (by rw [← List.map_take]; exact List.mem_map.2 ⟨p, hp, rfl⟩)
      simp only at this; omega
  · intro p hp
    have := g3 (p.1 - IB, p.2) (by rw [← List.map_take]; exact List.mem_map.2 ⟨p, hp, rfl⟩)
    obtain ⟨i, _, e⟩ := hB p (List.mem_of_mem_take hp)
    exact ⟨i, by simp only [CooSpec.vstep]; simp only at this; omega, e⟩
  · simp only [CooSpec.vstep, h2]

theorem step_inv (srt : List (Nat × α) → List (Nat × α)) (hsrt : Sorts srt) (full dbg : Bool) (IB : Nat) (junk : Coo.Junk Nat α)
    (v : CoordVec α) (s : VState α) (op : CoordVecOp α) (h : Inv srt full IB v s) (hl : CooSpec.vlegal s op) :
    ∃ v', v.step srt full dbg IB 0 junk op = .ok v' ∧ Inv srt full IB v' (CooSpec.vstep s op) := by
  cases op with
  | core op =>
    obtain ⟨hsz, hr⟩ := h
    obtain ⟨c, e, h1⟩ := Coo.step_rel (parOk srt hsrt full IB s.size) (keyMap srt full IB s.size) dbg junk v.coo s.st op hr hl
    refine ⟨⟨v.size, c⟩, ?_, hsz, h1⟩
    rw [← hsz] at e
    cases op with
    | modify i f =>
      have hc : check dbg (i < v.size) .badIndex = .ok () := check_true (by rw [hsz]; exact hl)
      simp only [CoordVec.step, hc, e, bind_ok]
    | _ => simp only [CoordVec.step, e, bind_ok]
  | resize n p =>
    cases p with
    | true => exact resizeTrue_spec srt hsrt full dbg IB junk v s h n
    | false =>
      obtain ⟨hsz, A, hA, hv, hin, hso⟩ := h
      have hl : s.st.sorted = true := hl
      have hcm := hA.capMin
      have hr := Coo.inv_empty (P := par srt full IB n) (Coo.restrictCapacity (par srt full IB n) v.coo.cap)
        (resizeRaw junk.1 v.coo.idx (Coo.restrictCapacity (par srt full IB n) v.coo.cap))
        (resizeRaw junk.2 v.coo.val (Coo.restrictCapacity (par srt full IB n) v.coo.cap))
        (CVec.length_resizeRaw _ _ _) (CVec.length_resizeRaw _ _ _) (Nat.le_max_right _ _)
      refine ⟨⟨n, _⟩, ?_, rfl, [], hr, ?_, by simp, ?_⟩
      · simp only [CoordVec.step, CoordVec.resize, Bool.false_eq_true, if_false, bind_ok]
        rw [← hso, hl, hr.invariants dbg, bind_ok]
      · intro i; simp only [CooSpec.vstep, collect_nil]
      · rfl

theorem run_inv (srt : List (Nat × α) → List (Nat × α)) (hsrt : Sorts srt) (full dbg : Bool) (IB : Nat)
    (ops : List (CoordVecOp α × Coo.Junk Nat α)) : ∀ (v : CoordVec α) (s : VState α),
    Inv srt full IB v s → CooSpec.vlegalRun s (ops.map (·.1)) →
    ∃ v', CoordVec.run srt full dbg IB 0 v ops = .ok v' ∧ Inv srt full IB v' (CooSpec.vrun s (ops.map (·.1))) := by
  induction ops with
  | nil => intro v s h _; exact ⟨v, rfl, h⟩
  | cons op ops ih =>
    intro v s h hl
    obtain ⟨v1, e1, h1⟩ := step_inv srt hsrt full dbg IB op.2 v s op.1 h hl.1
    obtain ⟨v2, e2, h2⟩ := ih v1 _ h1 hl.2
    exact ⟨v2, by simp [CoordVec.run, e1, e2], h2⟩

theorem inv_ctor (srt : List (Nat × α) → List (Nat × α)) (full dbg : Bool) (IB : Nat) (junk : Coo.Junk Nat α) (n nz : Nat) :
    ∃ v, CoordVec.ctor srt full dbg IB junk n nz = .ok v ∧ Inv srt full IB v ⟨n, fun _ => none, true⟩ := by
  have hr := Coo.inv_empty (P := par srt full IB n) (Coo.restrictCapacity (par srt full IB n) nz)
    ((List.range (Coo.restrictCapacity (par srt full IB n) nz)).map junk.1)
    ((List.range (Coo.restrictCapacity (par srt full IB n) nz)).map junk.2) (by simp) (by simp) (Nat.le_max_right _ _)
  refine ⟨⟨n, _⟩, ?_, rfl, [], hr, by intro i; simp only [collect_nil], by simp, rfl⟩
  simp only [CoordVec.ctor, Coo.ctor, bind_ok, hr.invariants dbg]


/-- The stored (index, value) records, in storage order. -/
def entries (IB : Nat) (v : CoordVec α) : List (Nat × α) := ((v.coo.idx.zip v.coo.val).take v.coo.filled).map (fun p => (p.1 - IB, p.2))

/-- Everything a client can see agrees with the specification: size, element reads, and the records stored
after sorting (what iteration enumerates). -/
def Observes (srt : List (Nat × α) → List (Nat × α)) (full dbg : Bool) (IB : Nat) (v : CoordVec α) (s : VState α) : Prop :=
  v.size = s.size ∧
  (∀ i, i < s.size → v.get srt full dbg IB 0 i = .ok ((s.st.val i).getD 0)) ∧
  (∀ i, s.size ≤ i → s.st.val i = none) ∧
  (∃ v', v.step srt full dbg IB 0 (fun _ => 0, fun _ => 0) (.core .sort) = .ok v' ∧ Lists (entries IB v') s.st.val) ∧
  v.coo.filled ≤ v.coo.cap

theorem Inv.observes {srt : List (Nat × α) → List (Nat × α)} (hsrt : Sorts srt) {full : Bool} (dbg : Bool) {IB : Nat}
    {v : CoordVec α} {s : VState α} (h : Inv srt full IB v s) : Observes srt full dbg IB v s := by
  have hP := parOk srt hsrt full IB s.size
  obtain ⟨hsz, hr⟩ := h
  refine ⟨hsz, ?_, ?_, ?_, ?_⟩
  · intro i hi
    obtain ⟨c, e, _⟩ := hr.get hP dbg i
    unfold CoordVec.get
    rw [check_true (by rw [hsz]; exact hi), bind_ok, hsz]
    simp only [e, bind_ok]
  · intro i hi
    obtain ⟨A, hA, hv, hin, hso⟩ := hr
    rw [hv, collect_eq_none]
    intro hm
    obtain ⟨p, hp, e⟩ := List.mem_map.1 hm
    obtain ⟨j, h1, h2⟩ := hin p hp
    have : i = j := Nat.add_right_cancel (m := IB) (e.symm.trans h2)
    exact absurd (this ▸ h1) (Nat.not_lt.2 hi)
  · obtain ⟨A, hA, hv, hin, hso⟩ := hr
    obtain ⟨c, B, e, h1, h2, h3, h4, h5⟩ := sort_spec hP dbg hA
    have hB := keys_inside (B := B) hin (by rw [h3]; exact fun _ h => h)
    have hst : Strict (fun a b : Nat => decide (a < b)) B := h1.strictAll h2
    refine ⟨⟨v.size, c⟩, by simp only [CoordVec.step, Coo.step, hsz, e, bind_ok], ?_⟩
    have hent : entries IB ⟨v.size, c⟩ = B.map (fun p => (p.1 - IB, p.2)) := by
      unfold entries; rw [← h1.len, Coo.zip_take_drop _ _ _ h1.holds]
    rw [hent]
    have hge : ∀ p ∈ B, IB ≤ p.1 := by
      intro p hp; obtain ⟨i, _, e⟩ := hB p hp; omega
    constructor
    · rw [List.pairwise_map]
      refine List.Pairwise.imp_of_mem ?_ hst
      intro a b ha hb hab
      have := hge a ha; have := hge b hb
      simp only [decide_eq_true_eq] at hab
      simp only; omega
    · intro i w
      rw [hv, ← h3, collect_mem_strict natOrd hst]
      constructor
      · intro hm
        obtain ⟨p, hp, e⟩ := List.mem_map.1 hm
        have := hge p hp
        simp only [Prod.mk.injEq] at e
        have e1 : i + IB = p.1 := by omega
        show (i + IB, w) ∈ B
        rw [e1, ← e.2]; exact hp
      · intro hm; exact List.mem_map.2 ⟨_, hm, by simp⟩
  · obtain ⟨A, hA, _⟩ := hr
    exact hA.fill

end CoordVec

/-- **C21**.  Any legal history of writes, inserts, appends (which add), erases, push_back, pop_back, clear,
reserve, resize, sorts and reads on a coordinate_vector leaves every element with the specified sum of
contributions, in both build modes, for any conforming `std::sort`, both sorting strategies, any index base
and any contents of uninitialised memory; no operation faults. -/
theorem C21_coordinate_vector (srt : List (Nat × α) → List (Nat × α)) (hsrt : CoordVec.Sorts srt) (full dbg : Bool) (IB : Nat)
    (junk : Coo.Junk Nat α) (n nz : Nat) (ops : List (CoordVecOp α × Coo.Junk Nat α))
    (hl : CooSpec.vlegalRun ⟨n, fun _ => none, true⟩ (ops.map (·.1))) :
    ∃ v0 v, CoordVec.ctor srt full dbg IB junk n nz = .ok v0 ∧ CoordVec.run srt full dbg IB 0 v0 ops = .ok v ∧
      CoordVec.Observes srt full dbg IB v (CooSpec.vrun ⟨n, fun _ => none, true⟩ (ops.map (·.1))) := by
  obtain ⟨v0, e0, h0⟩ := CoordVec.inv_ctor srt full dbg IB junk n nz
  obtain ⟨v, e1, h1⟩ := CoordVec.run_inv srt hsrt full dbg IB ops v0 _ h0 hl
  exact ⟨v0, v, e0, e1, h1.observes hsrt dbg⟩

/-! ## coordinate_matrix -/
namespace CoordMat

abbrev Sorts (srt : List ((Nat × Nat) × α) → List ((Nat × Nat) × α)) : Prop := SortOk lexLt srt

def Inv (srt : List ((Nat × Nat) × α) → List ((Nat × Nat) × α)) (full : Bool) (o : Orient) (IB : Nat) (v : CoordMat α) (s : MState α) : Prop :=
  v.size1 = s.rows ∧ v.size2 = s.cols ∧
    Coo.Rel (par srt full s.rows s.cols) (key o IB) (fun p => p.1 < s.rows ∧ p.2 < s.cols) v.coo s.st

theorem key_inj (o : Orient) (IB : Nat) (p q : Nat × Nat) (h : key o IB p = key o IB q) : p = q := by
  cases p; cases q
  cases o <;> simp [key, Orient.indexM, Orient.indexm] at h ⊢ <;> omega

theorem keyMap (srt : List ((Nat × Nat) × α) → List ((Nat × Nat) × α)) (full : Bool) (o : Orient) (IB r c : Nat) :
    Coo.KeyMap (par srt full r c) (key o IB) (CooSpec.order o) (fun p => p.1 < r ∧ p.2 < c) :=
  { inj := key_inj o IB
    ord := by intro p q; cases o <;> simp [par, lexLt, key, CooSpec.order, Orient.indexM, Orient.indexm]
    range := by intro i _; rfl
    pos := by intro i h; simp only [par]; omega }

theorem step_inv (srt : List ((Nat × Nat) × α) → List ((Nat × Nat) × α)) (hsrt : Sorts srt) (full dbg : Bool) (o : Orient) (IB : Nat)
    (junk : Coo.Junk (Nat × Nat) α) (v : CoordMat α) (s : MState α) (op : CoordMatOp α) (h : Inv srt full o IB v s) (hl : CooSpec.mlegal o s op) :
    ∃ v', v.step srt full dbg o IB 0 junk op = .ok v' ∧ Inv srt full o IB v' (CooSpec.mstep o s op) := by
  obtain ⟨h1, h2, hr⟩ := h
  cases op with
  | core op =>
    obtain ⟨c, e, hc⟩ := Coo.step_rel (parOk srt hsrt full s.rows s.cols) (keyMap srt full o IB s.rows s.cols) dbg junk v.coo s.st op hr hl
    exact ⟨⟨v.size1, v.size2, c⟩, by simp only [CoordMat.step, h1, h2, e, bind_ok], h1, h2, hc⟩
  | resize r c p =>
    have hp : p = false := hl
    subst hp
    have hr := Coo.inv_empty (P := par srt full r c) (Coo.restrictCapacity (par srt full r c) v.coo.cap)
        (resizeRaw junk.1 v.coo.idx (Coo.restrictCapacity (par srt full r c) v.coo.cap))
        (resizeRaw junk.2 v.coo.val (Coo.restrictCapacity (par srt full r c) v.coo.cap))
        (CVec.length_resizeRaw _ _ _) (CVec.length_resizeRaw _ _ _) (Nat.le_max_right _ _)
    refine ⟨⟨r, c, _⟩, ?_, rfl, rfl, [], hr, by intro i; simp only [CooSpec.mstep, collect_nil], by simp, rfl⟩
    simp only [CoordMat.step, CoordMat.resize, check_True, check_true, bind_ok, hr.invariants dbg]

theorem run_inv (srt : List ((Nat × Nat) × α) → List ((Nat × Nat) × α)) (hsrt : Sorts srt) (full dbg : Bool) (o : Orient) (IB : Nat)
    (ops : List (CoordMatOp α × Coo.Junk (Nat × Nat) α)) : ∀ (v : CoordMat α) (s : MState α),
    Inv srt full o IB v s → CooSpec.mlegalRun o s (ops.map (·.1)) →
    ∃ v', CoordMat.run srt full dbg o IB 0 v ops = .ok v' ∧ Inv srt full o IB v' (CooSpec.mrun o s (ops.map (·.1))) := by
  induction ops with
  | nil => intro v s h _; exact ⟨v, rfl, h⟩
  | cons op ops ih =>
    intro v s h hl
    obtain ⟨v1, e1, h1⟩ := step_inv srt hsrt full dbg o IB op.2 v s op.1 h hl.1
    obtain ⟨v2, e2, h2⟩ := ih v1 _ h1 hl.2
    exact ⟨v2, by simp [CoordMat.run, e1, e2], h2⟩

theorem inv_ctor (srt : List ((Nat × Nat) × α) → List ((Nat × Nat) × α)) (full dbg : Bool) (o : Orient) (IB : Nat) (junk : Coo.Junk (Nat × Nat) α) (r c nz : Nat) :
    ∃ v, CoordMat.ctor srt full dbg junk r c nz = .ok v ∧ Inv srt full o IB v ⟨r, c, fun _ => none, true⟩ := by
  have hr := Coo.inv_empty (P := par srt full r c) (Coo.restrictCapacity (par srt full r c) nz)
    ((List.range (Coo.restrictCapacity (par srt full r c) nz)).map junk.1)
    ((List.range (Coo.restrictCapacity (par srt full r c) nz)).map junk.2) (by simp) (by simp) (Nat.le_max_right _ _)
  refine ⟨⟨r, c, _⟩, ?_, rfl, rfl, [], hr, by intro i; simp only [collect_nil], by simp, rfl⟩
  simp only [CoordMat.ctor, Coo.ctor, bind_ok, hr.invariants dbg]

/-- The (row, column) denoted by a stored key. -/
def unkey (o : Orient) (IB : Nat) (k : Nat × Nat) : Nat × Nat :=
  match o with
  | .row => (k.1 - IB, k.2 - IB)
  | .col => (k.2 - IB, k.1 - IB)

/-- The stored ((row, column), value) records, in storage order. -/
def entries (o : Orient) (IB : Nat) (v : CoordMat α) : List ((Nat × Nat) × α) :=
  ((v.coo.idx.zip v.coo.val).take v.coo.filled).map (fun p => (unkey o IB p.1, p.2))

/-- Everything a client can see agrees with the specification: sizes, element reads, and the records stored
after sorting, which are strictly increasing in the storage order. -/
def Observes (srt : List ((Nat × Nat) × α) → List ((Nat × Nat) × α)) (full dbg : Bool) (o : Orient) (IB : Nat) (v : CoordMat α) (s : MState α) : Prop :=
  v.size1 = s.rows ∧ v.size2 = s.cols ∧
  (∀ p, v.get srt full dbg o IB 0 p = .ok ((s.st.val p).getD 0)) ∧
  (∀ p, ¬ (p.1 < s.rows ∧ p.2 < s.cols) → s.st.val p = none) ∧
  (∃ v', v.step srt full dbg o IB 0 (fun _ => (0, 0), fun _ => 0) (.core .sort) = .ok v' ∧
    (entries o IB v').Pairwise (fun a b => CooSpec.order o a.1 b.1) ∧ ∀ p w, (p, w) ∈ entries o IB v' ↔ s.st.val p = some w) ∧
  v.coo.filled ≤ v.coo.cap

theorem Inv.observes {srt : List ((Nat × Nat) × α) → List ((Nat × Nat) × α)} (hsrt : Sorts srt) {full : Bool} (dbg : Bool) {o : Orient} {IB : Nat}
    {v : CoordMat α} {s : MState α} (h : Inv srt full o IB v s) : Observes srt full dbg o IB v s := by
  have hP := parOk srt hsrt full s.rows s.cols
  obtain ⟨hs1, hs2, hr⟩ := h
  refine ⟨hs1, hs2, ?_, ?_, ?_, ?_⟩
  · intro p
    obtain ⟨c, e, _⟩ := hr.get hP dbg p
    unfold CoordMat.get
    rw [hs1, hs2]
    simp only [e, bind_ok]
  · intro i hi
    obtain ⟨A, hA, hv, hin, hso⟩ := hr
    rw [hv, collect_eq_none]
    intro hm
    obtain ⟨p, hp, e⟩ := List.mem_map.1 hm
    obtain ⟨j, h1, h2⟩ := hin p hp
    have : i = j := key_inj o IB i j (by rw [← e, h2])
    exact hi (this ▸ h1)
  · obtain ⟨A, hA, hv, hin, hso⟩ := hr
    obtain ⟨c, B, e, h1, h2, h3, h4, h5⟩ := sort_spec hP dbg hA
    have hB := keys_inside (B := B) hin (by rw [h3]; exact fun _ h => h)
    have hst : Strict lexLt B := h1.strictAll h2
    refine ⟨⟨v.size1, v.size2, c⟩, by simp only [CoordMat.step, Coo.step, hs1, hs2, e, bind_ok], ?_⟩
    have hent : entries o IB ⟨v.size1, v.size2, c⟩ = B.map (fun p => (unkey o IB p.1, p.2)) := by
      unfold entries; rw [← h1.len, Coo.zip_take_drop _ _ _ h1.holds]
    rw [hent]
    have hge : ∀ p ∈ B, IB ≤ p.1.1 ∧ IB ≤ p.1.2 := by
      intro p hp; obtain ⟨i, _, e⟩ := hB p hp; rw [e]
      cases o <;> simp [key]
    constructor
    · rw [List.pairwise_map]
      refine List.Pairwise.imp_of_mem ?_ hst
      intro a b ha hb hab
      have := hge a ha; have := hge b hb
      simp only [lexLt, decide_eq_true_eq] at hab
      cases o <;> simp only [CooSpec.order, unkey] <;> omega
    · intro i w
      rw [hv, ← h3, collect_mem_strict lexOrd hst]
      constructor
      · intro hm
        obtain ⟨p, hp, e⟩ := List.mem_map.1 hm
        have hg := hge p hp
        have e2 : (key o IB i, w) = p := by
          obtain ⟨⟨p1, p2⟩, pw⟩ := p
          obtain ⟨i1, i2⟩ := i
          simp only at hg
          cases o <;> simp only [unkey, Prod.mk.injEq] at e <;> simp only [key, Orient.indexM, Orient.indexm, Prod.mk.injEq] <;> refine ⟨⟨by omega, by omega⟩, e.2.symm⟩
        rw [e2]; exact hp
      · intro hm
        refine List.mem_map.2 ⟨_, hm, ?_⟩
        cases o <;> simp [key, unkey, Orient.indexM, Orient.indexm]
  · obtain ⟨A, hA, _⟩ := hr
    exact hA.fill

end CoordMat

/-- **C26**.  Any legal history on a coordinate_matrix (row- or column-major): every element reads as the sum
of the contributions appended since it was last erased, cleared or assigned, with no fault, in both build
modes, for any conforming `std::sort` and any contents of uninitialised memory. -/
theorem C26_coordinate_matrix (srt : List ((Nat × Nat) × α) → List ((Nat × Nat) × α)) (hsrt : CoordMat.Sorts srt) (full dbg : Bool) (o : Orient) (IB : Nat)
    (junk : Coo.Junk (Nat × Nat) α) (r c nz : Nat) (ops : List (CoordMatOp α × Coo.Junk (Nat × Nat) α))
    (hl : CooSpec.mlegalRun o ⟨r, c, fun _ => none, true⟩ (ops.map (·.1))) :
    ∃ v0 v, CoordMat.ctor srt full dbg junk r c nz = .ok v0 ∧ CoordMat.run srt full dbg o IB 0 v0 ops = .ok v ∧
      CoordMat.Observes srt full dbg o IB v (CooSpec.mrun o ⟨r, c, fun _ => none, true⟩ (ops.map (·.1))) := by
  obtain ⟨v0, e0, h0⟩ := CoordMat.inv_ctor srt full dbg o IB junk r c nz
  obtain ⟨v, e1, h1⟩ := CoordMat.run_inv srt hsrt full dbg o IB ops v0 _ h0 hl
  exact ⟨v0, v, e0, e1, h1.observes hsrt dbg⟩

/-! ## C22: the sort itself -/

/-- Arrays a coordinate container can be in before sorting: a strictly increasing sorted prefix followed by
an arbitrary tail. -/
structure Coo.Sortable (lt : κ → κ → Bool) (v : Coo κ α) : Prop where
  idxLen : v.idx.length = v.cap
  valLen : v.val.length = v.cap
  fill : v.filled ≤ v.cap
  sfLe : v.sortedFilled ≤ v.filled
  flag : v.sorted = decide (v.sortedFilled = v.filled)
  prefix_ : (v.idx.take v.sortedFilled).Pairwise (fun a b => lt a b = true)

/-- The first `filled` records. -/
def Coo.records (v : Coo κ α) : List (κ × α) := (v.idx.zip v.val).take v.filled

/-- `B` holds exactly the keys of `A`, each once, in strictly increasing order, with the sum of the values
`A` holds for it. -/
def Coo.IsSumOf (lt : κ → κ → Bool) (B A : List (κ × α)) : Prop :=
  B.Pairwise (fun a b => lt a.1 b.1 = true) ∧
  (∀ k, (∃ w, (k, w) ∈ B) ↔ ∃ w, (k, w) ∈ A) ∧
  ∀ k w, (k, w) ∈ B → w = ((A.filter (fun p => decide (p.1 = k))).map (·.2)).sum

theorem Coo.sort_isSum {P : CooPar κ α} (hP : ParOk P) (dbg : Bool) (v : Coo κ α) (h : v.Sortable P.lt)
    (hm : P.minCap ≤ v.cap) (hr : ∀ p ∈ v.records, P.inRange p.1 = true) :
    ∃ v', v.sort dbg P = .ok v' ∧ v'.sorted = true ∧ v'.sortedFilled = v'.filled ∧ v'.filled ≤ v.filled ∧
      v'.cap = v.cap ∧ IsSumOf P.lt v'.records v.records := by
  have hrl : v.records.length = v.filled := by
    unfold Coo.records; rw [List.length_take, List.length_zip, h.idxLen, h.valLen]; have := h.fill; omega
  have hI : Coo.Inv P v v.records :=
    { idxLen := h.idxLen, valLen := h.valLen, len := hrl
      holds := by
        rw [Holds, hrl]
        unfold Coo.records
        rw [List.map_take, List.map_take, List.map_fst_zip (by rw [h.idxLen, h.valLen]; exact Nat.le_refl _), List.map_snd_zip (by rw [h.idxLen, h.valLen]; exact Nat.le_refl _)]
        exact ⟨rfl, rfl⟩
      sfLe := h.sfLe, sorted := h.flag
      strict := by
        have := h.prefix_
        have e : v.idx.take v.sortedFilled = (v.records.take v.sortedFilled).map (·.1) := by
          unfold Coo.records
          rw [List.take_take, Nat.min_eq_left h.sfLe, List.map_take, List.map_fst_zip (by rw [h.idxLen, h.valLen]; exact Nat.le_refl _)]
        rw [e, List.pairwise_map] at this; exact this
      range := hr, capMin := hm }
  obtain ⟨v', B, e, h1, h2, h3, h4, h5⟩ := sort_spec hP dbg hI
  have hst := h1.strictAll h2
  have hsf : v'.sortedFilled = v'.filled := by have := h1.sorted; rw [h2] at this; simpa using this.symm
  have hrec : v'.records = B := by unfold Coo.records; rw [← h1.len, zip_take_drop _ _ _ h1.holds]
  refine ⟨v', e, h2, hsf, h5, h4, ?_⟩
  rw [hrec]
  have hk : ∀ k, k ∈ B.map (·.1) ↔ k ∈ v.records.map (·.1) := by
    intro k
    rw [← not_iff_not, ← collect_eq_none, ← collect_eq_none, h3]
  refine ⟨hst, ?_, ?_⟩
  · intro k
    have := hk k
    simpa using this
  · intro k w hm
    have : collect B k = some w := (collect_mem_strict hP.ord hst k w).2 hm
    rw [h3] at this
    unfold collect at this
    split at this
    · simpa using this.symm
    · simp at this

/-- **C22** (coordinate_vector).  `sort ()` terminates without fault on every state with a strictly
increasing prefix and an arbitrary tail, and leaves the same indices, strictly increasing, each with the sum
of its previous contributions.  The internal merge (`inplace_merge`) is modelled step by step; only
`std::sort` is abstract. -/
theorem C22_coordinate_vector_sort (srt : List (Nat × α) → List (Nat × α)) (hsrt : CoordVec.Sorts srt) (full dbg : Bool) (IB size : Nat)
    (v : Coo Nat α) (h : v.Sortable (fun a b => decide (a < b))) (hc : 1 ≤ v.cap) (hr : ∀ p ∈ v.records, p.1 - IB < size) :
    ∃ v', v.sort dbg (CoordVec.par srt full IB size) = .ok v' ∧ v'.sorted = true ∧ v'.sortedFilled = v'.filled ∧ v'.filled ≤ v.filled ∧
      v'.cap = v.cap ∧ Coo.IsSumOf (fun a b => decide (a < b)) v'.records v.records :=
  Coo.sort_isSum (CoordVec.parOk srt hsrt full IB size) dbg v h hc (by intro p hp; simpa [CoordVec.par] using hr p hp)

/-- **C22** (coordinate_matrix). -/
theorem C22_coordinate_matrix_sort (srt : List ((Nat × Nat) × α) → List ((Nat × Nat) × α)) (hsrt : CoordMat.Sorts srt) (full dbg : Bool) (r c : Nat)
    (v : Coo (Nat × Nat) α) (h : v.Sortable lexLt) (hc : min r c ≤ v.cap) :
    ∃ v', v.sort dbg (CoordMat.par srt full r c) = .ok v' ∧ v'.sorted = true ∧ v'.sortedFilled = v'.filled ∧ v'.filled ≤ v.filled ∧
      v'.cap = v.cap ∧ Coo.IsSumOf lexLt v'.records v.records :=
  Coo.sort_isSum (CoordMat.parOk srt hsrt full r c) dbg v h hc (by intro p _; rfl)


/-! ## C23, C27, C28, C63: where the code departs from the specification -/

/-- A conforming `std::sort` (insertion sort), showing that `Sorts` is satisfiable. -/
def insSort (lt : κ → κ → Bool) : List (κ × α) → List (κ × α)
  | [] => []
  | p :: l => ins p (insSort lt l)
where
  ins (p : κ × α) : List (κ × α) → List (κ × α)
  | [] => [p]
  | q :: l => if lt q.1 p.1 then q :: ins p l else p :: q :: l

omit [AddCommMonoid α] in
theorem insSort_ok {lt : κ → κ → Bool} (h : KeyOrd lt) : SortOk lt (insSort lt : List (κ × α) → List (κ × α)) := by
  have perm : ∀ (p : κ × α) l, (insSort.ins lt p l).Perm (p :: l) := by
    intro p l
    induction l with
    | nil => exact List.Perm.refl _
    | cons q l ih =>
      simp only [insSort.ins]; split
      · exact (List.Perm.cons q ih).trans (List.Perm.swap p q l)
      · exact List.Perm.refl _
  have srt : ∀ (p : κ × α) l, Coo.Sorted lt l → Coo.Sorted lt (insSort.ins lt p l) := by
    intro p l hl
    induction l with
    | nil => simp [insSort.ins, Coo.Sorted]
    | cons q l ih =>
      have hq := List.pairwise_cons.1 hl
      simp only [insSort.ins]; split
      · rename_i hlt
        refine List.pairwise_cons.2 ⟨?_, ih hq.2⟩
        intro r hr
        rcases List.mem_cons.1 ((perm p l).subset hr) with e | e
        · subst e; exact h.asymm hlt
        · exact hq.1 r e
      · rename_i hlt
        refine List.pairwise_cons.2 ⟨?_, hl⟩
        intro r hr
        have hle : Coo.le lt p.1 q.1 := by simpa [Coo.le] using hlt
        rcases List.mem_cons.1 hr with e | e
        · subst e; exact hle
        · exact h.le_trans hle (hq.1 r e)
  intro l
  induction l with
  | nil => exact ⟨List.Perm.refl _, List.Pairwise.nil⟩
  | cons p l ih => exact ⟨(perm p _).trans (List.Perm.cons p ih.1), srt p _ ih.2⟩

/-- `std::sort` for the concrete runs below. -/
abbrev vSort : List (Nat × Int) → List (Nat × Int) := insSort (fun a b => decide (a < b))
abbrev mSort : List ((Nat × Nat) × Int) → List ((Nat × Nat) × Int) := insSort lexLt
abbrev vJunk : Coo.Junk Nat Int := (fun i => 50 + i, fun i => (i : Int) - 7)
abbrev mJunk : Coo.Junk (Nat × Nat) Int := (fun i => (50 + i, i), fun i => (i : Int) - 7)

/-- Run a coordinate_vector<int> of size `n` (room for 4 elements) through `ops` and read element `i`. -/
def vRead (full dbg : Bool) (n : Nat) (ops : List (CoordVecOp Int)) (i : Nat) : M Int := do
  let v0 ← CoordVec.ctor vSort full dbg 0 vJunk n 4
  let v ← CoordVec.run vSort full dbg 0 0 v0 (ops.map (fun op => (op, vJunk)))
  v.get vSort full dbg 0 0 i

def mRead (full dbg : Bool) (o : Orient) (r c : Nat) (ops : List (CoordMatOp Int)) (p : Nat × Nat) : M Int := do
  let v0 ← CoordMat.ctor mSort full dbg mJunk r c 4
  let v ← CoordMat.run mSort full dbg o 0 0 v0 (ops.map (fun op => (op, mJunk)))
  v.get mSort full dbg o 0 0 p

/-- **C23** (refuted).  `append_element (3, 30), append_element (1, 10), append_element (2, 20), pop_back ()`:
element 1 was stored and was not popped, yet it reads 0 in both build modes, because `pop_back` marks the
unsorted remainder as sorted. -/
theorem C23_pop_back_unsorted_refuted (full dbg : Bool) :
    vRead full dbg 5 [.core (.append 3 30), .core (.append 1 10), .core (.append 2 20)] 1 = .ok 10 ∧
    vRead full dbg 5 [.core (.append 3 30), .core (.append 1 10), .core (.append 2 20), .core .popBack] 1 = .ok 0 ∧
    mRead full dbg .row 5 5 [.core (.append (3, 0) 30), .core (.append (1, 0) 10), .core (.append (2, 0) 20), .core .popBack] (1, 0) = .ok 0 := by
  cases full <;> cases dbg <;> decide

/-- **C23** (refuted).  Popping the only element: the container's own consistency check fails in debug
builds, because `sorted_` receives the truth value of the new count 0. -/
theorem C23_pop_back_last_refuted (full : Bool) :
    vRead full true 5 [.core (.pushBack 3 30), .core .popBack] 3 = .error .internalLogic ∧
    mRead full true .row 5 5 [.core (.pushBack (3, 0) 30), .core .popBack] (3, 0) = .error .internalLogic := by
  cases full <;> decide

/-- **C23** (partial).  When the contents are sorted and at least two elements are stored, `pop_back` removes
exactly the last element, all others read as before, and the consistency checks pass.  Missing: unsorted
contents and the last element, for which the claim is false (above). -/
theorem C23_pop_back_partial (srt : List (Nat × α) → List (Nat × α)) (hsrt : CoordVec.Sorts srt) (full dbg : Bool) (IB : Nat)
    (v : CoordVec α) (s : VState α) (h : CoordVec.Inv srt full IB v s) (hs : s.st.sorted = true)
    (i j : Nat) (hij : i < j) (hi : s.st.val i ≠ none) (hj : s.st.val j ≠ none) (hlast : ∀ k, j < k → s.st.val k = none) :
    ∃ v', v.step srt full dbg IB 0 (fun _ => 0, fun _ => 0) (.core .popBack) = .ok v' ∧
      CoordVec.Observes srt full dbg IB v' ⟨s.size, fun k => if k = j then none else s.st.val k, true⟩ := by
  obtain ⟨v', e, h'⟩ := CoordVec.step_inv srt hsrt full dbg IB (fun _ => 0, fun _ => 0) v s (.core .popBack) h ⟨hs, i, j, by omega, hi, hj⟩
  refine ⟨v', e, ?_⟩
  have : CooSpec.vstep s (.core .popBack) = ⟨s.size, fun k => if k = j then none else s.st.val k, true⟩ := by
    simp only [CooSpec.vstep, CooSpec.step]
    congr 2
    funext k
    have hl : CooSpec.IsLast (· < ·) s.st.val k ↔ k = j := by
      constructor
      · rintro ⟨a, b⟩
        rcases b j hj with c | c
        · exact c.symm
        · exact absurd (hlast k c) a
      · rintro rfl
        refine ⟨hj, fun q hq => ?_⟩
        rcases Nat.lt_trichotomy q k with c | c | c
        · exact Or.inr c
        · exact Or.inl c
        · exact absurd (hlast q c) hq
    by_cases c : k = j
    · rw [if_pos (hl.2 c), if_pos c]
    · rw [if_neg (fun d => c (hl.1 d)), if_neg c]
  rw [← this]
  exact h'.observes hsrt dbg

/-- **C27** (coordinate_vector).  `resize (n, true)` keeps exactly the elements below `n`, from any state
(sorted or not), with no fault. -/
theorem C27_coordinate_vector_resize (srt : List (Nat × α) → List (Nat × α)) (hsrt : CoordVec.Sorts srt) (full dbg : Bool) (IB : Nat)
    (junk : Coo.Junk Nat α) (v : CoordVec α) (s : VState α) (h : CoordVec.Inv srt full IB v s) (n : Nat) :
    ∃ v', v.resize srt full dbg IB 0 junk n true = .ok v' ∧
      CoordVec.Observes srt full dbg IB v' ⟨n, fun k => if k < n then s.st.val k else none, true⟩ := by
  obtain ⟨v', e, h'⟩ := CoordVec.resizeTrue_spec srt hsrt full dbg IB junk v s h n
  exact ⟨v', e, h'.observes hsrt dbg⟩

/-- **C27** (coordinate_matrix, refuted).  `resize (r, c, true)` fails its own check in debug builds and
loses every element in release builds, even when the sizes do not change. -/
theorem C27_coordinate_matrix_resize_refuted (full : Bool) (o : Orient) :
    mRead full true o 3 3 [.core (.append (1, 2) 7), .resize 3 3 true] (1, 2) = .error .internalLogic ∧
    mRead full false o 3 3 [.core (.append (1, 2) 7)] (1, 2) = .ok 7 ∧
    mRead full false o 3 3 [.core (.append (1, 2) 7), .resize 3 3 true] (1, 2) = .ok 0 := by
  cases full <;> cases o <;> decide

/-- **C28** (coordinate containers, refuted).  `reserve (n)` with `n` below the number of stored elements
drops elements in both build modes (for the matrix: below that number and `min (size1, size2)`). -/
theorem C28_coordinate_reserve_refuted (full dbg : Bool) :
    vRead full dbg 5 [.core (.append 1 10), .core (.append 3 30)] 3 = .ok 30 ∧
    vRead full dbg 5 [.core (.append 1 10), .core (.append 3 30), .core (.reserve 1 true)] 3 = .ok 0 ∧
    mRead full dbg .row 1 5 [.core (.append (0, 1) 10), .core (.append (0, 3) 30)] (0, 3) = .ok 30 ∧
    mRead full dbg .row 1 5 [.core (.append (0, 1) 10), .core (.append (0, 3) 30), .core (.reserve 1 true)] (0, 3) = .ok 0 := by
  cases full <;> cases dbg <;> decide

/-- **C28** (coordinate_vector, partial): `reserve (n)` not below the number of stored elements changes
nothing.  Missing: smaller `n` (false, above). -/
theorem C28_coordinate_vector_reserve_partial (srt : List (Nat × α) → List (Nat × α)) (hsrt : CoordVec.Sorts srt) (full dbg : Bool) (IB : Nat)
    (junk : Coo.Junk Nat α) (v : CoordVec α) (s : VState α) (h : CoordVec.Inv srt full IB v s) (n : Nat) (hn : AtMost n s.st.val) :
    ∃ v', v.step srt full dbg IB 0 junk (.core (.reserve n true)) = .ok v' ∧
      CoordVec.Observes srt full dbg IB v' ⟨s.size, s.st.val, true⟩ := by
  obtain ⟨v', e, h'⟩ := CoordVec.step_inv srt hsrt full dbg IB junk v s (.core (.reserve n true)) h hn
  exact ⟨v', e, h'.observes hsrt dbg⟩

/-- **C28** (coordinate_matrix, partial). -/
theorem C28_coordinate_matrix_reserve_partial (srt : List ((Nat × Nat) × α) → List ((Nat × Nat) × α)) (hsrt : CoordMat.Sorts srt) (full dbg : Bool) (o : Orient)
    (IB : Nat) (junk : Coo.Junk (Nat × Nat) α) (v : CoordMat α) (s : MState α) (h : CoordMat.Inv srt full o IB v s) (n : Nat) (hn : AtMost n s.st.val) :
    ∃ v', v.step srt full dbg o IB 0 junk (.core (.reserve n true)) = .ok v' ∧
      CoordMat.Observes srt full dbg o IB v' ⟨s.rows, s.cols, s.st.val, true⟩ := by
  obtain ⟨v', e, h'⟩ := CoordMat.step_inv srt hsrt full dbg o IB junk v s (.core (.reserve n true)) h hn
  exact ⟨v', e, h'.observes hsrt dbg⟩

/-- **C63** (refuted).  Non-preserving `resize`/`reserve` of a coordinate_vector with unsorted contents: the
flag `sorted_` is left false although both counts become 0, so the container's own consistency check fails
in debug builds. -/
theorem C63_discarding_resize_refuted (full : Bool) :
    vRead full true 5 [.core (.append 1 10), .resize 5 false] 1 = .error .internalLogic ∧
    vRead full true 5 [.core (.append 1 10), .core (.reserve 4 false)] 1 = .error .internalLogic := by
  cases full <;> decide

/-- **C63** (partial).  From sorted contents they give an empty vector.  Missing: unsorted contents in debug
builds (false, above). -/
theorem C63_discarding_resize_partial (srt : List (Nat × α) → List (Nat × α)) (hsrt : CoordVec.Sorts srt) (full dbg : Bool) (IB : Nat)
    (junk : Coo.Junk Nat α) (v : CoordVec α) (s : VState α) (h : CoordVec.Inv srt full IB v s) (hs : s.st.sorted = true) (n : Nat) :
    (∃ v', v.resize srt full dbg IB 0 junk n false = .ok v' ∧ CoordVec.Observes srt full dbg IB v' ⟨n, fun _ => none, true⟩) ∧
    ∃ v', v.step srt full dbg IB 0 junk (.core (.reserve n false)) = .ok v' ∧ CoordVec.Observes srt full dbg IB v' ⟨s.size, fun _ => none, true⟩ := by
  obtain ⟨v1, e1, h1⟩ := CoordVec.step_inv srt hsrt full dbg IB junk v s (.resize n false) h hs
  obtain ⟨v2, e2, h2⟩ := CoordVec.step_inv srt hsrt full dbg IB junk v s (.core (.reserve n false)) h (Or.inr hs)
  exact ⟨⟨v1, e1, h1.observes hsrt dbg⟩, v2, e2, h2.observes hsrt dbg⟩

/-! ## The hypotheses are met by non-trivial histories -/

/-- Appends in decreasing order with a duplicate, a write, an erase, a push_back after sorting, a shrink. -/
def C21_demo : List (CoordVecOp Int) :=
  [.core (.append 4 40), .core (.append 1 10), .core (.append 4 2), .core (.modify 2 (· + 5)), .core (.append 1 1), .core (.erase 2),
    .core (.pushBack 6 60), .core (.insert 5 50), .core (.sort), .core .popBack, .resize 5 true]

example : CooSpec.vlegalRun (⟨8, fun _ => none, true⟩ : VState Int) C21_demo := by
  simp only [C21_demo, CooSpec.vlegalRun, CooSpec.vlegal, CooSpec.legal, CooSpec.vstep, CooSpec.step]
  refine ⟨by omega, by omega, by omega, by omega, by omega, trivial, ⟨by omega, trivial, ?_⟩, ⟨by omega, ?_⟩, trivial, ⟨trivial, 1, 4, by omega, ?_, ?_⟩, trivial, trivial⟩
  · intro j hj; by_contra hc; apply hj; grind
  · grind
  · grind
  · grind

example : CoordVec.Sorts vSort ∧ CoordMat.Sorts mSort := ⟨insSort_ok natOrd, insSort_ok lexOrd⟩

example : (List.range 5).map (fun i => vRead false true 8 C21_demo i) = [.ok 0, .ok 11, .ok 0, .ok 0, .ok 42] := by decide

def C26_demo : List (CoordMatOp Int) :=
  [.core (.append (2, 1) 40), .core (.append (0, 1) 10), .core (.append (2, 1) 2), .core (.modify (1, 1) (· + 5)), .core (.append (0, 1) 1),
    .core (.erase (1, 1)), .core (.pushBack (2, 3) 60)]

example : CooSpec.mlegalRun .row (⟨3, 4, fun _ => none, true⟩ : MState Int) C26_demo := by
  simp only [C26_demo, CooSpec.mlegalRun, CooSpec.mlegal, CooSpec.legal, CooSpec.mstep, CooSpec.step]
  refine ⟨by omega, by omega, by omega, by omega, by omega, trivial, ⟨by omega, trivial, ?_⟩, trivial⟩
  intro j hj
  rcases j with ⟨a, b⟩
  by_contra hc; apply hj
  simp only [CooSpec.order] at hc
  grind

example : [(2, 1), (0, 1), (1, 1), (2, 3)].map (fun p => mRead false true .row 3 4 C26_demo p) = [.ok 42, .ok 11, .ok 0, .ok 60] := by decide

/-- A state with a two-element sorted prefix and an unsorted tail with a duplicate. -/
example : (⟨4, 4, 2, false, [1, 5, 3, 1], [10, 50, 30, 1]⟩ : Coo Nat Int).Sortable (fun a b => decide (a < b)) ∧
    (⟨4, 4, 2, false, [1, 5, 3, 1], [10, 50, 30, 1]⟩ : Coo Nat Int).sort true (CoordVec.par vSort false 0 6) =
      .ok ⟨4, 3, 3, true, [1, 3, 5, 5], [11, 30, 50, 50]⟩ := by
  refine ⟨⟨rfl, rfl, by decide, by decide, by decide, by decide⟩, by decide⟩

end Ublas
