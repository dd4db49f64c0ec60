import Verif.Model.Table
import Verif.Props.Vector
import Verif.Lemmas.Layout
/-!
# C134: a dense matrix is the table of its elements
-/
namespace Ublas
open Search Storage TabSpec
namespace TabMat
open DVec (ArrLaws Done)
variable {α ρ : Type} {A : ArrImpl ρ α} {WF : ρ → Prop} {els : ρ → List α} {fits : Nat → Prop}

theorem raw_major (o : Orient) (a b s1 s2 : Nat) : o.elementRaw (o.indexM a b) s1 (o.indexm a b) s2 = a * o.sizem s1 s2 + b := by
  cases o <;> simp [Orient.elementRaw, Orient.indexM, Orient.indexm, Orient.sizem, Nat.add_comm]

theorem sizes_mul (o : Orient) (s1 s2 : Nat) : o.sizeM s1 s2 * o.sizem s1 s2 = s1 * s2 := by
  cases o <;> simp [Orient.sizeM, Orient.sizem, Nat.mul_comm]

theorem bnd (o : Orient) {a b s1 s2 : Nat} (ha : a < o.sizeM s1 s2) (hb : b < o.sizem s1 s2) : o.indexM a b < s1 ∧ o.indexm a b < s2 := by
  cases o <;> simp_all [Orient.sizeM, Orient.sizem, Orient.indexM, Orient.indexm]

theorem nest {σ : Type} (I : Nat → σ → Prop) (F : Nat → σ → M σ) (mj mn : Nat) (s : σ)
    (hF : ∀ a t, a < mj → I (a * mn) t → ∃ f, F a t = loop f mn t ∧ ∀ b u, b < mn → I (a * mn + b) u → ∃ u', f b u = .ok u' ∧ I (a * mn + b + 1) u') (h0 : I 0 s) :
    ∃ t, loop F mj s = .ok t ∧ I (mj * mn) t := by
  refine loop_inv (fun a t => I (a * mn) t) (by simpa using h0) fun a t ha hi => ?_
  obtain ⟨f, e, h⟩ := hF a t ha hi
  rw [e]
  obtain ⟨t', e1, e2⟩ := loop_inv (f := f) (n := mn) (s := t) (fun b t => I (a * mn + b) t) hi (fun b u hb hi => h b u hb hi)
  exact ⟨t', e1, by rw [Nat.succ_mul]; exact e2⟩

/-- The matrix object `m` stands for `s`. -/
structure Rep (WF : ρ → Prop) (els : ρ → List α) (o : Orient) (m : TabMat ρ) (s : Tab α) : Prop where
  wf : WF m.arr
  len : (els m.arr).length = s.rows * s.cols
  s1 : m.size1 = s.rows
  s2 : m.size2 = s.cols
  val : ∀ (i j : Nat) (x : α), i < s.rows → j < s.cols → s.val i j = some x → (els m.arr)[o.elementRaw i s.rows j s.cols]? = some x

/-- An object of a consistent shape. -/
def Ok (WF : ρ → Prop) (els : ρ → List α) (m : TabMat ρ) : Prop := WF m.arr ∧ (els m.arr).length = m.size1 * m.size2

theorem Rep.ok {o : Orient} {m : TabMat ρ} {s : Tab α} (h : Rep WF els o m s) : Ok WF els m := ⟨h.wf, by rw [h.len, h.s1, h.s2]⟩

theorem get_ok (L : ArrLaws A WF els fits) (dbg : Bool) (o : Orient) {m : TabMat ρ} (hm : WF m.arr) {i j : Nat} {x : α} (hi : i < m.size1) (hj : j < m.size2)
    (hx : (els m.arr)[o.elementRaw i m.size1 j m.size2]? = some x) : get A dbg o m i j = .ok x := by
  simp only [get, element_ok dbg o hi hj, bind_ok, L.index dbg _ _ _ hm hx]

theorem deref_ok (L : ArrLaws A WF els fits) (dbg : Bool) (o : Orient) {m : TabMat ρ} (hm : WF m.arr) {i j : Nat} {x : α} (hi : i < m.size1) (hj : j < m.size2)
    (hx : (els m.arr)[o.elementRaw i m.size1 j m.size2]? = some x) : deref A dbg o m (o.elementRaw i m.size1 j m.size2) = .ok x := by
  have h1 : o.indexI (o.elementRaw i m.size1 j m.size2) m.size1 m.size2 < m.size1 := by rw [indexI_elementRaw o hi hj]; exact hi
  have h2 : o.indexJ (o.elementRaw i m.size1 j m.size2) m.size1 m.size2 < m.size2 := by rw [indexJ_elementRaw o hi hj]; exact hj
  simp only [deref, check_true h1, check_true h2, bind_ok, L.deref _ _ _ hm hx]

theorem derefPut_eq (dbg : Bool) (o : Orient) {m : TabMat ρ} {i j : Nat} (hi : i < m.size1) (hj : j < m.size2) (t : α) :
    derefPut A dbg o m (o.elementRaw i m.size1 j m.size2) t = (A.put m.arr (o.elementRaw i m.size1 j m.size2) t >>= fun a => .ok ⟨m.size1, m.size2, a⟩) := by
  have h1 : o.indexI (o.elementRaw i m.size1 j m.size2) m.size1 m.size2 < m.size1 := by rw [indexI_elementRaw o hi hj]; exact hi
  have h2 : o.indexJ (o.elementRaw i m.size1 j m.size2) m.size1 m.size2 < m.size2 := by rw [indexJ_elementRaw o hi hj]; exact hj
  simp only [derefPut, check_true h1, check_true h2, bind_ok]

/-! ## Element-wise loops -/

/-- `g` computes `h i j x` for element (i, j) with value `x` in every state of the loop. -/
def Computes (WF : ρ → Prop) (els : ρ → List α) (o : Orient) (m : TabMat ρ) (g : TabMat ρ → Nat → Nat → α → M α) (h : Nat → Nat → α → α) : Prop :=
  ∀ (w : TabMat ρ) (i j : Nat) (x : α), w.size1 = m.size1 → w.size2 = m.size2 → WF w.arr → (els w.arr).length = (els m.arr).length → i < m.size1 → j < m.size2 →
    (els w.arr)[o.elementRaw i m.size1 j m.size2]? = some x → g w i j x = .ok (h i j x)

/-- The first `k` cells have been done. -/
def St (WF : ρ → Prop) (els : ρ → List α) (o : Orient) (m : TabMat ρ) (h : Nat → Nat → α → α) (k : Nat) (t : TabMat ρ) : Prop :=
  t.size1 = m.size1 ∧ t.size2 = m.size2 ∧ Done WF els (els m.arr) (fun k => h (o.indexI k m.size1 m.size2) (o.indexJ k m.size1 m.size2)) k t.arr

theorem St.next {o : Orient} {m : TabMat ρ} {h : Nat → Nat → α → α} {a b : Nat} {t : TabMat ρ} (hm : Ok WF els m)
    (ha : a < o.sizeM m.size1 m.size2) (hb : b < o.sizem m.size1 m.size2) (d : St WF els o m h (a * o.sizem m.size1 m.size2 + b) t) :
    ∃ x, (els t.arr)[o.elementRaw (o.indexM a b) m.size1 (o.indexm a b) m.size2]? = some x ∧
      o.elementRaw (o.indexM a b) m.size1 (o.indexm a b) m.size2 < (els t.arr).length ∧
      ∀ c, WF c → els c = (els t.arr).set (o.elementRaw (o.indexM a b) m.size1 (o.indexm a b) m.size2) (h (o.indexM a b) (o.indexm a b) x) →
        St WF els o m h (a * o.sizem m.size1 m.size2 + b + 1) ⟨t.size1, t.size2, c⟩ := by
  obtain ⟨b1, b2⟩ := bnd o ha hb
  have hlt : o.elementRaw (o.indexM a b) m.size1 (o.indexm a b) m.size2 < (els m.arr).length := by rw [hm.2]; exact elementRaw_lt o b1 b2
  obtain ⟨d1, d2, d3⟩ := d
  rw [← raw_major o a b m.size1 m.size2] at d3 ⊢
  refine ⟨(els m.arr)[o.elementRaw (o.indexM a b) m.size1 (o.indexm a b) m.size2], by rw [d3.2.2]; simp, by rw [d3.2.1]; exact hlt, fun c hc he => ⟨d1, d2, ?_⟩⟩
  refine d3.step hlt hc ?_
  rw [he, indexI_elementRaw o b1 b2, indexJ_elementRaw o b1 b2]

theorem St.first (o : Orient) {m : TabMat ρ} (hm : Ok WF els m) (h : Nat → Nat → α → α) : St WF els o m h 0 m := ⟨rfl, rfl, hm.1, rfl, by simp⟩

theorem eachIndexed_ok (L : ArrLaws A WF els fits) (dbg : Bool) (o : Orient) (g : TabMat ρ → Nat → Nat → α → M α) (h : Nat → Nat → α → α) (m : TabMat ρ)
    (hm : Ok WF els m) (hg : Computes WF els o m g h) :
    ∃ m', eachIndexed A dbg o g m = .ok m' ∧ St WF els o m h (m.size1 * m.size2) m' := by
  rw [← sizes_mul o]
  refine nest (St WF els o m h) _ _ _ m ?_ (St.first o hm h)
  intro a t0 ha d0
  refine ⟨_, by rw [d0.1, d0.2.1], ?_⟩
  intro b t hb d
  obtain ⟨x, h1, h2, h3⟩ := St.next hm ha hb d
  obtain ⟨b1, b2⟩ := bnd o ha hb
  obtain ⟨c, e1, e2, e3⟩ := L.store dbg t.arr _ (h (o.indexM a b) (o.indexm a b) x) d.2.2.1 h2
  refine ⟨_, ?_, h3 c e2 e3⟩
  have b1' : o.indexM a b < t.size1 := by rw [d.1]; exact b1
  have b2' : o.indexm a b < t.size2 := by rw [d.2.1]; exact b2
  simp only [element_ok dbg o b1' b2', bind_ok]
  rw [d.1, d.2.1]
  simp only [L.index dbg t.arr _ _ d.2.2.1 h1, bind_ok, hg t _ _ x d.1 d.2.1 d.2.2.1 d.2.2.2.1 b1 b2 h1, e1]

theorem start_ok (dbg : Bool) (o : Orient) (t : TabMat ρ) (a : Nat) (ha : a < o.sizeM t.size1 t.size2) :
    ∃ s, innerBegin dbg o t (a * outerStride o t) = .ok s ∧
      (0 < o.sizem t.size1 t.size2 → s = a * o.sizem t.size1 t.size2) := by
  cases o with
  | row =>
    have ha : a < t.size1 := ha
    by_cases h0 : t.size2 = 0
    · exact ⟨0, by simp [innerBegin, outerStride, begin2, stride1, Orient.indexI, Orient.address, Orient.elementRaw, h0, check], by simp [Orient.sizem, h0]⟩
    · have e : a * t.size2 / t.size2 = a := Nat.mul_div_cancel _ (by omega)
      have e2 : a ≤ t.size1 := by omega
      exact ⟨a * t.size2, by simp [innerBegin, outerStride, begin2, stride1, Orient.indexI, Orient.address, Orient.elementRaw, h0, e, Nat.not_lt.2 e2, check], fun _ => rfl⟩
  | col =>
    have ha : a < t.size2 := ha
    by_cases h0 : t.size1 = 0
    · exact ⟨0, by simp [innerBegin, outerStride, begin1, stride2, Orient.indexJ, Orient.address, Orient.elementRaw, h0, check], by simp [Orient.sizem, h0]⟩
    · have e : a * t.size1 / t.size1 = a := Nat.mul_div_cancel _ (by omega)
      have e2 : a ≤ t.size2 := by omega
      exact ⟨a * t.size1, by simp [innerBegin, outerStride, begin1, stride2, Orient.indexJ, Orient.address, Orient.elementRaw, h0, e, Nat.not_lt.2 e2, check], fun _ => rfl⟩

theorem eachIterated_ok (L : ArrLaws A WF els fits) (dbg : Bool) (o : Orient) (g : TabMat ρ → Nat → Nat → α → M α) (h : Nat → Nat → α → α) (m : TabMat ρ)
    (hm : Ok WF els m) (hg : Computes WF els o m g h) :
    ∃ m', eachIterated A dbg o g m = .ok m' ∧ St WF els o m h (m.size1 * m.size2) m' := by
  rw [← sizes_mul o]
  refine nest (St WF els o m h) _ _ _ m ?_ (St.first o hm h)
  intro a t ha d
  have hs1 : t.size1 = m.size1 := d.1
  have hs2 : t.size2 = m.size2 := d.2.1
  obtain ⟨s, e1, e2⟩ := start_ok dbg o t a (by rw [hs1, hs2]; exact ha)
  rw [hs1, hs2] at e2
  refine ⟨_, by rw [e1, bind_ok, hs1, hs2], ?_⟩
  intro b t hb d
  have st1 : innerStride o t = 1 := by cases o <;> rfl
  obtain ⟨x, h1, h2, h3⟩ := St.next hm ha hb d
  obtain ⟨b1, b2⟩ := bnd o ha hb
  obtain ⟨c, e3, e4, e5⟩ := L.put t.arr _ (h (o.indexM a b) (o.indexm a b) x) d.2.2.1 h2
  refine ⟨_, ?_, h3 c e4 e5⟩
  have hs1 : t.size1 = m.size1 := d.1
  have hs2 : t.size2 = m.size2 := d.2.1
  have b1' : o.indexM a b < t.size1 := by rw [hs1]; exact b1
  have b2' : o.indexm a b < t.size2 := by rw [hs2]; exact b2
  have hh := hg t _ _ x hs1 hs2 d.2.2.1 d.2.2.2.1 b1 b2 h1
  simp only [st1, Nat.mul_one]
  rw [e2 (by omega), ← raw_major, ← hs1, ← hs2]
  rw [← hs1, ← hs2] at h1 e3
  simp only [deref_ok L dbg o d.2.2.1 b1' b2' h1, bind_ok, hh, derefPut_eq dbg o b1' b2', e3]

theorem each_ok (L : ArrLaws A WF els fits) (dbg : Bool) (o : Orient) (mode : ProdFn.Mode) (g : Bool → TabMat ρ → Nat → Nat → α → M α) (h : Nat → Nat → α → α)
    (m : TabMat ρ) (hm : Ok WF els m) (hg : ∀ it, Computes WF els o m (g it) h) :
    ∃ m', each A dbg o mode g m = .ok m' ∧ m'.size1 = m.size1 ∧ m'.size2 = m.size2 ∧ WF m'.arr ∧ (els m'.arr).length = (els m.arr).length ∧
      ∀ i j, i < m.size1 → j < m.size2 → (els m'.arr)[o.elementRaw i m.size1 j m.size2]? = (els m.arr)[o.elementRaw i m.size1 j m.size2]?.map (h i j) := by
  have fin : ∀ m', St WF els o m h (m.size1 * m.size2) m' → m'.size1 = m.size1 ∧ m'.size2 = m.size2 ∧ WF m'.arr ∧ (els m'.arr).length = (els m.arr).length ∧
      ∀ i j, i < m.size1 → j < m.size2 → (els m'.arr)[o.elementRaw i m.size1 j m.size2]? = (els m.arr)[o.elementRaw i m.size1 j m.size2]?.map (h i j) := by
    rintro m' ⟨d1, d2, d3, d4, d5⟩
    refine ⟨d1, d2, d3, d4, fun i j hi hj => ?_⟩
    rw [d5, if_pos (elementRaw_lt o hi hj)]
    simp only [indexI_elementRaw o hi hj, indexJ_elementRaw o hi hj]
  cases mode with
  | indexing =>
    obtain ⟨m', e1, e2⟩ := eachIndexed_ok L dbg o (g false) h m hm (hg false)
    exact ⟨m', e1, fin m' e2⟩
  | iterating =>
    obtain ⟨m', e1, e2⟩ := eachIterated_ok L dbg o (g true) h m hm (hg true)
    exact ⟨m', e1, fin m' e2⟩
  | threshold b =>
    by_cases hb : b ≤ m.size1 ∧ b ≤ m.size2
    · obtain ⟨m', e1, e2⟩ := eachIterated_ok L dbg o (g true) h m hm (hg true)
      exact ⟨m', by simp only [each, hb, and_self, if_true, e1], fin m' e2⟩
    · obtain ⟨m', e1, e2⟩ := eachIndexed_ok L dbg o (g false) h m hm (hg false)
      exact ⟨m', by simp only [each, hb, if_false, e1], fin m' e2⟩

/-- After an element-wise loop. -/
theorem each_rep (L : ArrLaws A WF els fits) (dbg : Bool) (o : Orient) (mode : ProdFn.Mode) (g : Bool → TabMat ρ → Nat → Nat → α → M α) (h : Nat → Nat → α → α)
    (m : TabMat ρ) (r c : Nat) (val : Nat → Nat → Option α) (hm : Ok WF els m) (hr : m.size1 = r) (hc : m.size2 = c) (hg : ∀ it, Computes WF els o m (g it) h)
    (hv : ∀ i j y, i < r → j < c → val i j = some y → ∀ x, (els m.arr)[o.elementRaw i r j c]? = some x → h i j x = y) :
    ∃ m', each A dbg o mode g m = .ok m' ∧ Rep WF els o m' ⟨r, c, val⟩ := by
  subst hr hc
  obtain ⟨m', e1, e2, e3, e4, e5, e6⟩ := each_ok L dbg o mode g h m hm hg
  refine ⟨m', e1, e4, by rw [e5]; exact hm.2, e2, e3, fun i j y hi hj hy => ?_⟩
  have hlt : o.elementRaw i m.size1 j m.size2 < (els m.arr).length := by rw [hm.2]; exact elementRaw_lt o hi hj
  have := hv i j y hi hj hy _ (List.getElem?_eq_getElem hlt)
  show (els m'.arr)[o.elementRaw i m.size1 j m.size2]? = some y
  rw [e6 i j hi hj, List.getElem?_eq_getElem hlt, Option.map_some, this]

theorem rep_set (o : Orient) {m : TabMat ρ} {s : Tab α} (h : Rep WF els o m s) {i j : Nat} (hi : i < s.rows) (hj : j < s.cols) (t : α) {c : ρ} (hc : WF c)
    (he : els c = (els m.arr).set (o.elementRaw i s.rows j s.cols) t) : Rep WF els o ⟨m.size1, m.size2, c⟩ (upd s i j (some t)) := by
  refine ⟨hc, by simp [he, h.len, upd], h.s1, h.s2, fun a b x ha hb hx => ?_⟩
  simp only [upd] at ha hb hx ⊢
  rw [he]
  by_cases hab : a = i ∧ b = j
  · obtain ⟨rfl, rfl⟩ := hab
    simp only [and_self, if_true, Option.some.injEq] at hx
    rw [List.getElem?_set_self (by rw [h.len]; exact elementRaw_lt o ha hb), hx]
  · rw [if_neg hab] at hx
    rw [List.getElem?_set_ne, h.val a b x ha hb hx]
    intro e
    exact hab (elementRaw_inj o ha hb hi hj e.symm)

theorem set_ok (L : ArrLaws A WF els fits) (dbg : Bool) (o : Orient) {m : TabMat ρ} {s : Tab α} (h : Rep WF els o m s) {i j : Nat} (hi : i < s.rows) (hj : j < s.cols) (t : α) :
    ∃ m', set A dbg o m i j t = .ok m' ∧ Rep WF els o m' (upd s i j (some t)) := by
  have hi' : i < m.size1 := by rw [h.s1]; exact hi
  have hj' : j < m.size2 := by rw [h.s2]; exact hj
  have hlt : o.elementRaw i m.size1 j m.size2 < (els m.arr).length := by rw [h.ok.2]; exact elementRaw_lt o hi' hj'
  obtain ⟨c, e1, e2, e3⟩ := L.store dbg m.arr _ t h.wf hlt
  refine ⟨_, by simp only [set, element_ok dbg o hi' hj', bind_ok, e1], rep_set o h hi hj t e2 ?_⟩
  rw [e3, h.s1, h.s2]

theorem ctor_ok (L : ArrLaws A WF els fits) (dbg : Bool) (o : Orient) (junk : Nat → α) (c : TabCtor α) (hc : fits ((start c).rows * (start c).cols)) :
    ∃ m, ctor A dbg o junk c = .ok m ∧ Rep WF els o m (start c) := by
  cases c with
  | sized r c =>
    obtain ⟨v, e1, e2, e3⟩ := L.make dbg junk (o.storageSize r c) hc
    exact ⟨⟨r, c, v⟩, by simp only [ctor, e1, bind_ok], e2, e3, rfl, rfl, by simp [start]⟩
  | filled r c t =>
    obtain ⟨v, e1, e2, e3⟩ := L.makeInit dbg junk (o.storageSize r c) t hc
    refine ⟨⟨r, c, v⟩, by simp only [ctor, e1, bind_ok], e2, by simp [e3, Orient.storageSize, start], rfl, rfl, fun i j x hi hj hx => ?_⟩
    simp only [start, Option.some.injEq] at hi hj hx ⊢
    subst hx
    rw [e3, List.getElem?_replicate, if_pos]
    exact elementRaw_lt o hi hj

theorem swap_ok (L : ArrLaws A WF els fits) (o : Orient) {a b : TabMat ρ} {s t : Tab α} (ha : Rep WF els o a s) (hb : Rep WF els o b t) :
    ∃ a' b', swap A a b = .ok (a', b') ∧ Rep WF els o a' t ∧ Rep WF els o b' s := by
  obtain ⟨v, w, e1, e2, e3, e4, e5⟩ := L.swap a.arr b.arr ha.wf hb.wf
  refine ⟨⟨b.size1, b.size2, v⟩, ⟨a.size1, a.size2, w⟩, by simp only [swap, e1, bind_ok], ⟨e2, by simp only [e4]; exact hb.len, hb.s1, hb.s2, ?_⟩, ⟨e3, by simp only [e5]; exact ha.len, ha.s1, ha.s2, ?_⟩⟩
  · simp only [e4]; exact hb.val
  · simp only [e5]; exact ha.val

theorem resizePreserve_ok (L : ArrLaws A WF els fits) (dbg : Bool) (o : Orient) {m tmp : TabMat ρ} {s : Tab α} {r c : Nat} (h : Rep WF els o m s)
    (ht : Rep WF els o tmp ⟨r, c, fun _ _ => none⟩) :
    ∃ m', resizePreserve A dbg o m tmp = .ok m' ∧ Rep WF els o m' ⟨r, c, fun a b => if a < s.rows ∧ b < s.cols then s.val a b else none⟩ := by
  have t1 : tmp.size1 = r := ht.s1
  have t2 : tmp.size2 = c := ht.s2
  have tl : (els tmp.arr).length = r * c := ht.len
  let P : Nat → Nat → ρ → Prop := fun k l d => WF d ∧ (els d).length = r * c ∧
    ∀ a b, a < o.sizeM (min r s.rows) (min c s.cols) → b < o.sizem (min r s.rows) (min c s.cols) → (a < k ∨ a = k ∧ b < l) →
      (els d)[o.elementRaw (o.indexM a b) r (o.indexm a b) c]? = (els m.arr)[o.elementRaw (o.indexM a b) s.rows (o.indexm a b) s.cols]?
  obtain ⟨d, e1, e2, e3, e4⟩ := loop_inv (f := fun major (d : ρ) => loop (fun minor d => (do
      let i1 := o.indexM major minor
      let i2 := o.indexm major minor
      let kt ← o.element dbg i1 r i2 c
      let km ← o.element dbg i1 s.rows i2 s.cols
      let x ← A.index dbg m.arr km
      A.store dbg d kt x : M ρ)) (o.sizem (min r s.rows) (min c s.cols)) d) (n := o.sizeM (min r s.rows) (min c s.cols)) (s := tmp.arr)
    (fun k d => P k 0 d) ⟨ht.wf, tl, fun a b _ _ h => by omega⟩ (by
      intro k d hk hP
      obtain ⟨d', f1, f2, f3, f4⟩ := loop_inv (f := fun minor (d : ρ) => (do
          let i1 := o.indexM k minor
          let i2 := o.indexm k minor
          let kt ← o.element dbg i1 r i2 c
          let km ← o.element dbg i1 s.rows i2 s.cols
          let x ← A.index dbg m.arr km
          A.store dbg d kt x : M ρ)) (n := o.sizem (min r s.rows) (min c s.cols)) (s := d) (fun l d => P k l d) hP (by
        rintro l d hl ⟨p1, p2, p3⟩
        obtain ⟨b1, b2⟩ := bnd o hk hl
        have b3 : o.indexM k l < r := by omega
        have b4 : o.indexM k l < s.rows := by omega
        have b5 : o.indexm k l < c := by omega
        have b6 : o.indexm k l < s.cols := by omega
        have l1 : o.elementRaw (o.indexM k l) s.rows (o.indexm k l) s.cols < (els m.arr).length := by rw [h.len]; exact elementRaw_lt o b4 b6
        have l2 : o.elementRaw (o.indexM k l) r (o.indexm k l) c < (els d).length := by rw [p2]; exact elementRaw_lt o b3 b5
        obtain ⟨d', g1, g2, g3⟩ := L.store dbg d _ (els m.arr)[o.elementRaw (o.indexM k l) s.rows (o.indexm k l) s.cols] p1 l2
        refine ⟨d', by simp only [element_ok dbg o b3 b5, element_ok dbg o b4 b6, bind_ok, L.index dbg m.arr _ _ h.wf (List.getElem?_eq_getElem l1), g1], g2, by simp [g3, p2], ?_⟩
        intro a b ha hb hd
        obtain ⟨q1, q2⟩ := bnd o ha hb
        rw [g3]
        by_cases hab : a = k ∧ b = l
        · obtain ⟨rfl, rfl⟩ := hab
          rw [List.getElem?_set_self l2, List.getElem?_eq_getElem l1]
        · rw [List.getElem?_set_ne, p3 a b ha hb (by omega)]
          intro e
          have := elementRaw_inj o b3 b5 (by omega) (by omega) e
          apply hab
          cases o <;> simp_all [Orient.indexM, Orient.indexm])
      exact ⟨d', f1, f2, f3, fun a b ha hb hd => f4 a b ha hb (by omega)⟩)
  have ht' : Rep WF els o ⟨tmp.size1, tmp.size2, d⟩ ⟨r, c, fun a b => if a < s.rows ∧ b < s.cols then s.val a b else none⟩ := by
    refine ⟨e2, e3, t1, t2, fun i j x hi hj hx => ?_⟩
    simp only at hi hj hx ⊢
    by_cases hin : i < s.rows ∧ j < s.cols
    · rw [if_pos hin] at hx
      have k1 : o.indexM i j < o.sizeM (min r s.rows) (min c s.cols) := by cases o <;> simp_all [Orient.indexM, Orient.sizeM]
      have k2 : o.indexm i j < o.sizem (min r s.rows) (min c s.cols) := by cases o <;> simp_all [Orient.indexm, Orient.sizem]
      have := e4 (o.indexM i j) (o.indexm i j) k1 k2 (.inl k1)
      have q1 : o.indexM (o.indexM i j) (o.indexm i j) = i := by cases o <;> rfl
      have q2 : o.indexm (o.indexM i j) (o.indexm i j) = j := by cases o <;> rfl
      rw [q1, q2, h.val i j x hin.1 hin.2 hx] at this
      exact this
    · rw [if_neg hin] at hx; simp at hx
  obtain ⟨a', b', s1, s2, s3⟩ := swap_ok L o h ht'
  refine ⟨a', ?_, s2⟩
  simp only [resizePreserve, h.s1, h.s2, t1, t2]
  rw [e1, bind_ok]
  rw [t1, t2] at s1
  rw [s1, bind_ok]

theorem step_ok (L : ArrLaws A WF els fits) (dbg : Bool) (o : Orient) (mode : ProdFn.Mode) (zero : α) (junk : Nat → α) (m : TabMat ρ) (s : Tab α) (p : TabOp α)
    (h : Rep WF els o m s) (hl : legal fits s p) :
    ∃ m', TabMat.step A dbg o mode zero junk m p = .ok m' ∧ Rep WF els o m' (TabSpec.step zero s p) := by
  have hs1 := h.s1
  have hs2 := h.s2
  cases p with
  | set i j t => exact set_ok L dbg o h hl.1 hl.2 t
  | erase i j => exact set_ok L dbg o h hl.1 hl.2 zero
  | modify i j f =>
    obtain ⟨hi, hj, x, hx⟩ := hl
    have hi' : i < m.size1 := by rw [hs1]; exact hi
    have hj' : j < m.size2 := by rw [hs2]; exact hj
    have hv : (els m.arr)[o.elementRaw i m.size1 j m.size2]? = some x := by rw [hs1, hs2]; exact h.val i j x hi hj hx
    obtain ⟨c, e1, e2, e3⟩ := L.store dbg m.arr _ (f x) h.wf (List.getElem?_eq_some_iff.1 hv).1
    refine ⟨⟨m.size1, m.size2, c⟩, by simp only [TabMat.step, modify, element_ok dbg o hi' hj', bind_ok, L.index dbg _ _ _ h.wf hv, e1], ?_⟩
    simp only [TabSpec.step, hx, Option.map_some]
    refine rep_set o h hi hj (f x) e2 ?_
    rw [e3, hs1, hs2]
  | putRow i j t =>
    obtain ⟨hi, hj⟩ := hl
    have hi' : i < m.size1 := by rw [hs1]; exact hi
    have hj' : j < m.size2 := by rw [hs2]; exact hj
    have a1 : o.elementRaw 0 m.size1 0 m.size2 + i * stride1 o m = o.elementRaw i m.size1 0 m.size2 := by cases o <;> simp [Orient.elementRaw, stride1]
    have a2 : o.elementRaw i m.size1 0 m.size2 + j * stride2 o m = o.elementRaw i m.size1 j m.size2 := by cases o <;> simp [Orient.elementRaw, stride2]
    have hlt : o.elementRaw i m.size1 j m.size2 < (els m.arr).length := by rw [h.ok.2]; exact elementRaw_lt o hi' hj'
    obtain ⟨c, e1, e2, e3⟩ := L.put m.arr _ t h.wf hlt
    refine ⟨⟨m.size1, m.size2, c⟩, ?_, rep_set o h hi hj t e2 (by rw [e3, hs1, hs2])⟩
    have hi2 : i ≤ m.size1 := by omega
    simp only [TabMat.step, putRow, Orient.address, check_true (Nat.zero_le m.size1), check_true (Nat.zero_le m.size2), bind_ok, pure_eq_ok, a1, begin2,
      indexI_elementRaw o hi' (Nat.lt_of_le_of_lt (Nat.zero_le j) hj'), check_true hi2, a2, derefPut_eq dbg o hi' hj', e1]
  | putColumn i j t =>
    obtain ⟨hi, hj⟩ := hl
    have hi' : i < m.size1 := by rw [hs1]; exact hi
    have hj' : j < m.size2 := by rw [hs2]; exact hj
    have a1 : o.elementRaw 0 m.size1 0 m.size2 + j * stride2 o m = o.elementRaw 0 m.size1 j m.size2 := by cases o <;> simp [Orient.elementRaw, stride2]
    have a2 : o.elementRaw 0 m.size1 j m.size2 + i * stride1 o m = o.elementRaw i m.size1 j m.size2 := by cases o <;> simp [Orient.elementRaw, stride1, Nat.add_comm]
    have hlt : o.elementRaw i m.size1 j m.size2 < (els m.arr).length := by rw [h.ok.2]; exact elementRaw_lt o hi' hj'
    obtain ⟨c, e1, e2, e3⟩ := L.put m.arr _ t h.wf hlt
    refine ⟨⟨m.size1, m.size2, c⟩, ?_, rep_set o h hi hj t e2 (by rw [e3, hs1, hs2])⟩
    have hj2 : j ≤ m.size2 := by omega
    simp only [TabMat.step, putColumn, Orient.address, check_true (Nat.zero_le m.size1), check_true (Nat.zero_le m.size2), bind_ok, pure_eq_ok, a1, begin1,
      indexJ_elementRaw o (Nat.lt_of_le_of_lt (Nat.zero_le i) hi') hj', check_true hj2, a2, derefPut_eq dbg o hi' hj', e1]
  | clear =>
    obtain ⟨c, e1, e2, e3, e4⟩ := loop_inv (f := fun k a => A.put a k zero) (n := A.size m.arr) (s := m.arr)
      (fun k t => WF t ∧ (els t).length = s.rows * s.cols ∧ ∀ i, i < k → (els t)[i]? = some zero) ⟨h.wf, h.len, by simp⟩ (by
        rintro k t hk ⟨g1, g2, g3⟩
        obtain ⟨t', f1, f2, f3⟩ := L.put t k zero g1 (by rw [L.size _ h.wf, h.len] at hk; omega)
        refine ⟨t', f1, f2, by simp [f3, g2], fun i hi => ?_⟩
        rw [f3, List.getElem?_set]
        have := g3 i
        rw [L.size _ h.wf, h.len] at hk
        grind)
    refine ⟨⟨m.size1, m.size2, c⟩, by simp only [TabMat.step, clear, e1, bind_ok], e2, e3, hs1, hs2, fun i j x hi hj hx => ?_⟩
    simp only [TabSpec.step, Option.some.injEq] at hi hj hx ⊢
    rw [← hx]
    refine e4 _ ?_
    rw [L.size _ h.wf, h.len]
    exact elementRaw_lt o hi hj
  | resize r c p =>
    cases p with
    | true =>
      obtain ⟨t, e1, e2⟩ := ctor_ok L dbg o junk (.sized r c) hl
      obtain ⟨m', e3, e4⟩ := resizePreserve_ok L dbg o h e2
      exact ⟨m', by simp only [TabMat.step, resize, if_true, e1, bind_ok, e3], e4⟩
    | false =>
      obtain ⟨v, e1, e2, e3⟩ := L.resize dbg junk m.arr (o.storageSize r c) h.wf hl
      exact ⟨⟨r, c, v⟩, by simp [TabMat.step, resize, e1], e2, e3, rfl, rfl, by simp [TabSpec.step]⟩
  | scale f =>
    refine each_rep L dbg o mode _ (fun _ _ x => f x) m s.rows s.cols _ h.ok hs1 hs2 (fun _ _ _ _ _ _ _ _ _ _ _ _ => rfl) fun i j y hi hj hy x hx => ?_
    obtain ⟨z, hz, rfl⟩ := Option.map_eq_some_iff.1 hy
    rw [h.val i j z hi hj hz] at hx
    simp_all
  | load w =>
    obtain ⟨v, e1, e2, e3⟩ := L.resize dbg junk m.arr (o.storageSize w.rows w.cols) h.wf hl
    obtain ⟨m', e4, e5⟩ := each_rep L dbg o mode (fun _ _ i j _ => operand w i j) (fun i j _ => w.val i j) ⟨w.rows, w.cols, v⟩ w.rows w.cols
      (fun a b => some (w.val a b)) ⟨e2, e3⟩ rfl rfl (fun _ _ i j x _ _ _ _ hi hj _ => by show operand w i j = _; simp only [operand, show i < w.rows ∧ j < w.cols from ⟨hi, hj⟩, and_self, if_true])
      (fun i j y _ _ hy x _ => by simpa using hy)
    exact ⟨m', by simp only [TabMat.step, load, resize, Bool.false_eq_true, if_false, e1, bind_ok, same, check_True, pure_eq_ok, e4], e5⟩
  | zip f w =>
    obtain ⟨h1, h2, hsp⟩ := hl
    have c1 : m.size1 = w.rows := by rw [hs1, h1]
    have c2 : m.size2 = w.cols := by rw [hs2, h2]
    obtain ⟨m', e4, e5⟩ := each_rep L dbg o mode (fun _ _ i j x => do let y ← operand w i j; .ok (f x y)) (fun i j x => f x (w.val i j)) m s.rows s.cols
      (fun a b => (s.val a b).map fun x => f x (w.val a b)) h.ok hs1 hs2
      (fun _ _ i j x _ _ _ _ hi hj _ => by
        show (operand w i j >>= fun y => .ok (f x y)) = _
        have hb : i < w.rows ∧ j < w.cols := ⟨by omega, by omega⟩
        simp only [operand, hb, and_self, if_true, bind_ok])
      (fun i j y hi hj hy x hx => by
        obtain ⟨z, hz, rfl⟩ := Option.map_eq_some_iff.1 hy
        rw [h.val i j z hi hj hz] at hx
        simp_all)
    exact ⟨m', by simp only [TabMat.step, zip, same, check_true c1, check_true c2, bind_ok, pure_eq_ok]; exact e4, e5⟩
  | zipSelf f =>
    let zg : Bool → TabMat ρ → Nat → Nat → α → M α := fun it m i j x => do
      let y ← if it then deref A dbg o m (o.elementRaw i m.size1 j m.size2) else get A dbg o m i j
      .ok (f x y)
    have hc : ∀ it : Bool, Computes WF els o m (zg it) (fun _ _ x => f x x) := by
      intro it w i j x w1 w2 hw _ hi hj hx
      rw [← w1] at hi hx
      rw [← w2] at hj hx
      cases it
      · simp only [zg, Bool.false_eq_true, if_false, get_ok L dbg o hw hi hj hx, bind_ok]
      · simp only [zg, if_true, deref_ok L dbg o hw hi hj hx, bind_ok]
    obtain ⟨m', e, r⟩ := each_rep L dbg o mode zg (fun _ _ x => f x x) m s.rows s.cols (fun a b => (s.val a b).map fun x => f x x) h.ok hs1 hs2 hc
      (fun i j y hi hj hy x hx => by
        obtain ⟨z, hz, rfl⟩ := Option.map_eq_some_iff.1 hy
        rw [h.val i j z hi hj hz] at hx
        simp_all)
    exact ⟨m', e, r⟩

theorem laws (L : ArrLaws A WF els fits) (dbg : Bool) (o : Orient) (mode : ProdFn.Mode) (zero : α) :
    Values.Laws True (ops A dbg o mode zero) (Rep WF els o) (legal fits) (TabSpec.step zero) where
  step j v s p h hl := step_ok L dbg o mode zero j v s p h hl
  copy _ j v s h := by
    obtain ⟨w, e1, e2, e3⟩ := L.copy j v.arr h.wf
    exact ⟨v, ⟨v.size1, v.size2, w⟩, by simp only [ops, e1, bind_ok], h, e2, by simp only [e3]; exact h.len, h.s1, h.s2, by simp only [e3]; exact h.val⟩
  assign j v w s t h1 h2 := by
    obtain ⟨c, e1, e2, e3⟩ := L.assign dbg j v.arr w.arr h1.wf h2.wf
    exact ⟨⟨w.size1, w.size2, c⟩, by simp only [ops, e1, bind_ok], e2, by simp only [e3]; exact h2.len, h2.s1, h2.s2, by simp only [e3]; exact h2.val⟩
  selfAssign v s h := ⟨v, rfl, h⟩
  swap v w s t h1 h2 := swap_ok L o h1 h2
  selfSwap v s h := ⟨v, rfl, h⟩

/-! ## Observations -/

/-- What the caller can see of the object `m`, by sizes, indices, and iterators along rows and columns, is `s`. -/
structure Looks (A : ArrImpl ρ α) (dbg : Bool) (o : Orient) (m : TabMat ρ) (s : Tab α) : Prop where
  size1 : m.size1 = s.rows
  size2 : m.size2 = s.cols
  element : ∀ (i j : Nat) (x : α), i < s.rows → j < s.cols → s.val i j = some x → get A dbg o m i j = .ok x
  rows : ∃ l, rows A dbg o m = .ok l ∧ ByRows l s
  columns : ∃ l, columns A dbg o m = .ok l ∧ ByColumns l s
  beyond : ∀ i j t, ¬ (i < s.rows ∧ j < s.cols) → get A true o m i j = .error .badIndex ∧ set A true o m i j t = .error .badIndex

theorem gather {β : Type} (f : Nat → M β) (n : Nat) (P : Nat → β → Prop) (h : ∀ k, k < n → ∃ x, f k = .ok x ∧ P k x) :
    ∃ l, loop (fun k acc => do let x ← f k; .ok (acc ++ [x])) n [] = .ok l ∧ l.length = n ∧ ∀ k, k < n → ∃ x, l[k]? = some x ∧ P k x := by
  obtain ⟨l, e1, e2, e3⟩ := loop_inv (f := fun k (acc : List β) => (f k >>= fun x => .ok (acc ++ [x]) : M _)) (n := n) (s := [])
    (fun k l => l.length = k ∧ ∀ i, i < k → ∃ x, l[i]? = some x ∧ P i x) ⟨rfl, by simp⟩ (by
      rintro k l hk ⟨g1, g2⟩
      obtain ⟨x, hx, hp⟩ := h k hk
      refine ⟨l ++ [x], by rw [hx, bind_ok], by simp [g1], fun i hi => ?_⟩
      by_cases hik : i = k
      · subst hik; exact ⟨x, by simp [← g1], hp⟩
      · obtain ⟨y, hy, hq⟩ := g2 i (by omega)
        exact ⟨y, by rw [List.getElem?_append_left (by omega)]; exact hy, hq⟩)
  exact ⟨l, e1, e2, e3⟩

theorem row_ok (L : ArrLaws A WF els fits) (dbg : Bool) (o : Orient) {m : TabMat ρ} (hm : Ok WF els m) {i : Nat} (hi : i < m.size1) :
    ∃ r, rowByIterator A dbg o m i = .ok r ∧ r.length = m.size2 ∧ ∀ j, j < m.size2 → ∃ x, r[j]? = some x ∧ (els m.arr)[o.elementRaw i m.size1 j m.size2]? = some x := by
  have st : ∃ s, (o.address dbg i m.size1 0 m.size2 >>= fun it1 => begin2 dbg o m it1) = .ok s ∧ ∀ j, j < m.size2 → s + j * stride2 o m = o.elementRaw i m.size1 j m.size2 := by
    have hi' : i ≤ m.size1 := by omega
    simp only [Orient.address, check_true hi', check_true (Nat.zero_le m.size2), bind_ok, pure_eq_ok, begin2]
    rcases Nat.eq_zero_or_pos m.size2 with hz | hp
    · have : o.indexI (o.elementRaw i m.size1 0 m.size2) m.size1 m.size2 ≤ m.size1 := by
        cases o
        · simp [Orient.indexI, hz]
        · simp only [Orient.indexI]; split
          · exact Nat.le_of_lt (Nat.mod_lt _ (by omega))
          · omega
      exact ⟨_, by rw [check_true this, bind_ok], fun j hj => by omega⟩
    · rw [indexI_elementRaw o hi hp, check_true hi', bind_ok]
      exact ⟨_, rfl, fun j _ => by cases o <;> simp [Orient.elementRaw, stride2]⟩
  obtain ⟨s, e1, e2⟩ := st
  obtain ⟨r, f1, f2, f3⟩ := gather (fun j => deref A dbg o m (s + j * stride2 o m)) m.size2 (fun j x => (els m.arr)[o.elementRaw i m.size1 j m.size2]? = some x) (by
    intro j hj
    have hlt : o.elementRaw i m.size1 j m.size2 < (els m.arr).length := by rw [hm.2]; exact elementRaw_lt o hi hj
    refine ⟨_, ?_, List.getElem?_eq_getElem hlt⟩
    simp only [e2 j hj]
    exact deref_ok L dbg o hm.1 hi hj (List.getElem?_eq_getElem hlt))
  refine ⟨r, ?_, f2, f3⟩
  simp only [rowByIterator]
  rw [← bind_assoc, e1, bind_ok]
  exact f1

theorem column_ok (L : ArrLaws A WF els fits) (dbg : Bool) (o : Orient) {m : TabMat ρ} (hm : Ok WF els m) {j : Nat} (hj : j < m.size2) :
    ∃ r, columnByIterator A dbg o m j = .ok r ∧ r.length = m.size1 ∧ ∀ i, i < m.size1 → ∃ x, r[i]? = some x ∧ (els m.arr)[o.elementRaw i m.size1 j m.size2]? = some x := by
  have st : ∃ s, (o.address dbg 0 m.size1 j m.size2 >>= fun it2 => begin1 dbg o m it2) = .ok s ∧ ∀ i, i < m.size1 → s + i * stride1 o m = o.elementRaw i m.size1 j m.size2 := by
    have hj' : j ≤ m.size2 := by omega
    simp only [Orient.address, check_true hj', check_true (Nat.zero_le m.size1), bind_ok, pure_eq_ok, begin1]
    rcases Nat.eq_zero_or_pos m.size1 with hz | hp
    · have : o.indexJ (o.elementRaw 0 m.size1 j m.size2) m.size1 m.size2 ≤ m.size2 := by
        cases o
        · simp only [Orient.indexJ]; split
          · exact Nat.le_of_lt (Nat.mod_lt _ (by omega))
          · omega
        · simp [Orient.indexJ, hz]
      exact ⟨_, by rw [check_true this, bind_ok], fun i hi => by omega⟩
    · rw [indexJ_elementRaw o hp hj, check_true hj', bind_ok]
      exact ⟨_, rfl, fun i _ => by cases o <;> simp [Orient.elementRaw, stride1, Nat.add_comm]⟩
  obtain ⟨s, e1, e2⟩ := st
  obtain ⟨r, f1, f2, f3⟩ := gather (fun i => deref A dbg o m (s + i * stride1 o m)) m.size1 (fun i x => (els m.arr)[o.elementRaw i m.size1 j m.size2]? = some x) (by
    intro i hi
    have hlt : o.elementRaw i m.size1 j m.size2 < (els m.arr).length := by rw [hm.2]; exact elementRaw_lt o hi hj
    refine ⟨_, ?_, List.getElem?_eq_getElem hlt⟩
    simp only [e2 i hi]
    exact deref_ok L dbg o hm.1 hi hj (List.getElem?_eq_getElem hlt))
  refine ⟨r, ?_, f2, f3⟩
  simp only [columnByIterator]
  rw [← bind_assoc, e1, bind_ok]
  exact f1

theorem Rep.looks (L : ArrLaws A WF els fits) (dbg : Bool) (o : Orient) {m : TabMat ρ} {s : Tab α} (h : Rep WF els o m s) : Looks A dbg o m s where
  size1 := h.s1
  size2 := h.s2
  element i j x hi hj hx := by
    refine get_ok L dbg o h.wf (by rw [h.s1]; exact hi) (by rw [h.s2]; exact hj) ?_
    rw [h.s1, h.s2]; exact h.val i j x hi hj hx
  rows := by
    obtain ⟨l, e1, e2, e3⟩ := gather (rowByIterator A dbg o m) m.size1 _ (fun i hi => row_ok L dbg o h.ok hi)
    refine ⟨l, e1, by rw [e2, h.s1], fun i hi => ?_⟩
    obtain ⟨r, f1, f2, f3⟩ := e3 i (by rw [h.s1]; exact hi)
    refine ⟨r, f1, by rw [f2, h.s2], fun j x hj hx => ?_⟩
    obtain ⟨y, g1, g2⟩ := f3 j (by rw [h.s2]; exact hj)
    rw [h.s1, h.s2, h.val i j x hi hj hx] at g2
    rw [g1, g2]
  columns := by
    obtain ⟨l, e1, e2, e3⟩ := gather (columnByIterator A dbg o m) m.size2 _ (fun j hj => column_ok L dbg o h.ok hj)
    refine ⟨l, e1, by rw [e2, h.s2], fun j hj => ?_⟩
    obtain ⟨r, f1, f2, f3⟩ := e3 j (by rw [h.s2]; exact hj)
    refine ⟨r, f1, by rw [f2, h.s1], fun i x hi hx => ?_⟩
    obtain ⟨y, g1, g2⟩ := f3 i (by rw [h.s1]; exact hi)
    rw [h.s1, h.s2, h.val i j x hi hj hx] at g2
    rw [g1, g2]
  beyond i j t hn := by
    have e : o.element true i m.size1 j m.size2 = .error .badIndex := by
      rw [h.s1, h.s2]
      by_cases hi : i < s.rows
      · have hj : ¬ j < s.cols := fun hj => hn ⟨hi, hj⟩
        simp only [Orient.element, check_true hi, check_dbg_false hj, bind_ok, bind_error]
      · simp only [Orient.element, check_dbg_false hi, bind_error]
    simp only [get, set, e, bind_error, and_self]

theorem program (L : ArrLaws A WF els fits) (dbg : Bool) (o : Orient) (mode : ProdFn.Mode) (zero : α) (c : Nat → TabCtor α) (junk : Nat → Nat → α)
    (os : List (ValOp (TabOp α) × (Nat → α))) (hc : ∀ x, fits ((start (c x)).rows * (start (c x)).cols))
    (hl : ValSpec.legalRun (legal fits) (TabSpec.step zero) (fun x => start (c x)) (os.map (·.1))) :
    ∃ e0 e, (∀ x, ctor A dbg o (junk x) (c x) = .ok (e0 x)) ∧ Values.run (ops A dbg o mode zero) e0 os = .ok e ∧
      ∀ x, Looks A dbg o (e x) (ValSpec.run (TabSpec.step zero) (fun x => start (c x)) (os.map (·.1)) x) := by
  have h0 : ∀ x, ∃ v, ctor A dbg o (junk x) (c x) = .ok v ∧ Rep WF els o v (start (c x)) := fun x => ctor_ok L dbg o _ _ (hc x)
  let e0 := fun x => (h0 x).choose
  obtain ⟨e, e1, e2⟩ := (laws L dbg o mode zero).run os (e := e0) (fun x => (h0 x).choose_spec.2) hl (.inl trivial)
  exact ⟨e0, e, fun x => (h0 x).choose_spec.1, e1, fun x => (e2 x).looks L dbg o⟩

end TabMat
open TabMat
variable {α : Type}

/-- **C134** (matrix<T, L>).  Any number of matrices, each constructed with sizes or with sizes and a value; any program of element writes, by index and through iterators of rows and of columns, `erase_element`, `clear`, `resize` with and
without preservation, `m *= t`, assignments from and additions of other containers, `m += m`, copies, assignments and swaps; in either orientation, every build and dispatch mode,
whatever fresh memory holds: no fault, and every matrix then looks like the table of its elements, by sizes, indices, by iterating the rows and by iterating the columns; every access
beyond the sizes is rejected in debug builds. -/
theorem C134_matrix (dbg : Bool) (o : Orient) (mode : ProdFn.Mode) (zero : α) (c : Nat → TabCtor α) (junk : Nat → Nat → α) (os : List (ValOp (TabOp α) × (Nat → α)))
    (hl : ValSpec.legalRun (legal fun _ => True) (TabSpec.step zero) (fun x => start (c x)) (os.map (·.1))) :
    ∃ e0 e, (∀ x, TabMat.ctor (unboundedImpl α) dbg o (junk x) (c x) = .ok (e0 x)) ∧ Values.run (TabMat.ops (unboundedImpl α) dbg o mode zero) e0 os = .ok e ∧
      ∀ x, TabMat.Looks (unboundedImpl α) dbg o (e x) (ValSpec.run (TabSpec.step zero) (fun x => start (c x)) (os.map (·.1)) x) :=
  TabMat.program DVec.unbounded_laws dbg o mode zero c junk os (fun _ => trivial) hl

/-- **C134** (matrix<T, L, bounded_array<T, N>>, bounded_matrix<T, R, C, L> with `N = R * C`).  The same for at most `N` elements. -/
theorem C134_bounded_matrix (dbg : Bool) (N : Nat) (o : Orient) (mode : ProdFn.Mode) (zero : α) (c : Nat → TabCtor α) (junk : Nat → Nat → α)
    (os : List (ValOp (TabOp α) × (Nat → α))) (hc : ∀ x, (start (c x)).rows * (start (c x)).cols ≤ N)
    (hl : ValSpec.legalRun (legal fun n => n ≤ N) (TabSpec.step zero) (fun x => start (c x)) (os.map (·.1))) :
    ∃ e0 e, (∀ x, TabMat.ctor (boundedImpl α N) dbg o (junk x) (c x) = .ok (e0 x)) ∧ Values.run (TabMat.ops (boundedImpl α N) dbg o mode zero) e0 os = .ok e ∧
      ∀ x, TabMat.Looks (boundedImpl α N) dbg o (e x) (ValSpec.run (TabSpec.step zero) (fun x => start (c x)) (os.map (·.1)) x) :=
  TabMat.program (DVec.bounded_laws N) dbg o mode zero c junk os hc hl

/-- **C134** (rejections).  A bounded matrix that would have to hold more than `N` elements is rejected in debug builds: at construction, `resize` of either kind and assignment; so is
adding a matrix of other sizes, in either kind of storage. -/
theorem C134_rejects (N : Nat) (o : Orient) (mode : ProdFn.Mode) (zero : α) (junk : Nat → α) (m : TabMat (Storage.BArr α)) (u : TabMat (List α)) :
    (∀ c, N < (start c).rows * (start c).cols → TabMat.ctor (boundedImpl α N) true o junk c = .error .badSize) ∧
    (∀ r c p, N < r * c → TabMat.step (boundedImpl α N) true o mode zero junk m (.resize r c p) = .error .badSize) ∧
    (∀ w, N < w.rows * w.cols → TabMat.step (boundedImpl α N) true o mode zero junk m (.load w) = .error .badSize) ∧
    (∀ f w, ¬ (w.rows = m.size1 ∧ w.cols = m.size2) → TabMat.step (boundedImpl α N) true o mode zero junk m (.zip f w) = .error .badArgument) ∧
    (∀ f w, ¬ (w.rows = u.size1 ∧ w.cols = u.size2) → TabMat.step (unboundedImpl α) true o mode zero junk u (.zip f w) = .error .badArgument) := by
  have hz : ∀ (ρ : Type) (A : ArrImpl ρ α) (v : TabMat ρ) f (w : Grid α), ¬ (w.rows = v.size1 ∧ w.cols = v.size2) →
      TabMat.step A true o mode zero junk v (.zip f w) = .error .badArgument := by
    intro ρ A v f w h
    show (same true v.size1 w.rows >>= fun _ => same true v.size2 w.cols >>= _) = _
    by_cases h1 : v.size1 = w.rows
    · have h2 : ¬ v.size2 = w.cols := fun e => h ⟨h1.symm, e.symm⟩
      simp only [same, check_true h1, check_dbg_false h2, bind_ok, bind_error, pure_eq_ok]
    · simp only [same, check_dbg_false h1, bind_error]
  refine ⟨?_, ?_, ?_, hz _ _ m, hz _ _ u⟩
  · intro c hc
    cases c with
    | sized r c =>
      have hn : ¬ r * c ≤ N := by simp [start] at hc; omega
      simp only [TabMat.ctor, boundedImpl, Storage.BArr.ctor, Orient.storageSize, check_dbg_false hn, bind_error]
    | filled r c t =>
      have hn : ¬ r * c ≤ N := by simp [start] at hc; omega
      simp only [TabMat.ctor, boundedImpl, Storage.BArr.ctorInit, Orient.storageSize, check_dbg_false hn, bind_error]
  · intro r c p h
    have hn : ¬ r * c ≤ N := by omega
    cases p <;> simp [TabMat.step, TabMat.resize, TabMat.ctor, boundedImpl, Storage.BArr.resize, Storage.BArr.ctor, Orient.storageSize, check_dbg_false hn]
  · intro w h
    have hn : ¬ w.rows * w.cols ≤ N := by omega
    simp only [TabMat.step, TabMat.load, TabMat.resize, Bool.false_eq_true, if_false, boundedImpl, Storage.BArr.resize, Orient.storageSize, check_dbg_false hn, bind_error]

/-- **C134** (example).  `bounded_matrix<int, 2, 3> x (1, 2, 5), y (0, 0); y = {{1, 2}}; x += y; x += x; y.resize (2, 3); y (1, 2) = 9; z (y); swap (x, y); y.resize (3, 2, false);
y (2, 1) = 8; *((y.begin1 () + 1).begin ()) = 6; *((y.begin2 () + 1).begin () + 1) = 4` is a legal program and its outcome is not trivial. -/
theorem C134_demo :
    let w : Grid Int := ⟨1, 2, fun _ j => j + 1⟩
    let os : List (ValOp (TabOp Int)) := [.op 1 (.load w), .op 0 (.zip (· + ·) w), .op 0 (.zipSelf (· + ·)), .op 1 (.resize 2 3 true), .op 1 (.set 1 2 9), .copy 2 1,
      .swap 0 1, .op 1 (.resize 3 2 false), .op 1 (.set 2 1 8), .op 1 (.putRow 1 0 6), .op 1 (.putColumn 1 1 4)]
    let s0 : Nat → Tab Int := fun x => start (if x = 0 then .filled 1 2 5 else .sized 0 0)
    let e := ValSpec.run (TabSpec.step 0) s0 os
    ValSpec.legalRun (legal fun n => n ≤ 6) (TabSpec.step 0) s0 os ∧
    ((e 0).rows, (e 0).cols, (e 0).val 0 1, (e 0).val 1 2, (e 0).val 1 1) = (2, 3, some 2, some 9, none) ∧
    ((e 1).rows, (e 1).cols, (e 1).val 2 1, (e 1).val 1 0, (e 1).val 1 1, (e 1).val 0 0) = (3, 2, some 8, some 6, some 4, none) ∧
    (ValSpec.run (TabSpec.step 0) s0 (os.take 3) 0).val 0 1 = some 14 := by
  refine ⟨⟨(by decide : 1 * 2 ≤ 6), ⟨rfl, rfl, fun i j hi hj => ⟨5, rfl⟩⟩, fun i j hi hj => ⟨_, rfl⟩, (by decide : 2 * 3 ≤ 6), (by decide : 1 < 2 ∧ 2 < 3), (by decide : 2 ≠ 1), trivial,
    (by decide : 3 * 2 ≤ 6), (by decide : 2 < 3 ∧ 1 < 2), (by decide : 1 < 3 ∧ 0 < 2), (by decide : 1 < 3 ∧ 1 < 2), trivial⟩, by decide, by decide, by decide⟩

end Ublas
