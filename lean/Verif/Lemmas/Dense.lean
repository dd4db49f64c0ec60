import Verif.Lemmas.Layout
import Verif.Spec.Dense
namespace Ublas.Dense
variable {α : Type}

theorem get_eq (dbg : Bool) (o : Orient) (m : Dense α) (hw : m.WF) {i j : Nat}
    (hi : i < m.size1) (hj : j < m.size2) :
    ∃ h : o.elementRaw i m.size1 j m.size2 < m.data.length,
      m.get dbg o i j = .ok (m.data[o.elementRaw i m.size1 j m.size2]) := by
  have h : o.elementRaw i m.size1 j m.size2 < m.data.length := by
    rw [hw]; exact elementRaw_lt o hi hj
  exact ⟨h, by simp [get, element_ok dbg o hi hj, rd_ok h]⟩

theorem set_eq (dbg : Bool) (o : Orient) (m : Dense α) (hw : m.WF) {i j : Nat} (t : α)
    (hi : i < m.size1) (hj : j < m.size2) :
    m.set dbg o i j t = .ok { m with data := m.data.set (o.elementRaw i m.size1 j m.size2) t } := by
  have h : o.elementRaw i m.size1 j m.size2 < m.data.length := by
    rw [hw]; exact elementRaw_lt o hi hj
  simp [set, element_ok dbg o hi hj, wr_ok h]

/-- Reading after a write, pointwise. -/
theorem get_set (dbg : Bool) (o : Orient) (m m' : Dense α) (hw : m.WF) {i j : Nat} (t : α)
    (hi : i < m.size1) (hj : j < m.size2) (h : m.set dbg o i j t = .ok m') :
    m'.WF ∧ m'.size1 = m.size1 ∧ m'.size2 = m.size2 ∧
    ∀ a b, a < m.size1 → b < m.size2 →
      m'.get dbg o a b = if a = i ∧ b = j then .ok t else m.get dbg o a b := by
  rw [set_eq dbg o m hw t hi hj] at h
  obtain rfl : _ = m' := by simpa using h
  have hw' : ({ m with data := m.data.set (o.elementRaw i m.size1 j m.size2) t } : Dense α).WF := by
    simpa [WF] using hw
  refine ⟨hw', rfl, rfl, ?_⟩
  intro a b ha hb
  obtain ⟨h1, e1⟩ := get_eq dbg o m hw ha hb
  obtain ⟨h2, e2⟩ := get_eq dbg o _ hw' (i := a) (j := b) ha hb
  rw [e1, e2]
  simp only [List.getElem_set]
  by_cases hab : a = i ∧ b = j
  · obtain ⟨rfl, rfl⟩ := hab; simp
  · rw [if_neg hab, if_neg]
    intro he
    have := elementRaw_inj o hi hj ha hb he
    exact hab ⟨this.1.symm, this.2.symm⟩

theorem resizeBody_eq (dbg : Bool) (o : Orient) (m : Dense α) (hw : m.WF) (s1 s2 major minor : Nat)
    (d : List α) (hd : d.length = s1 * s2)
    (hM : major < o.sizeM (min s1 m.size1) (min s2 m.size2))
    (hm : minor < o.sizem (min s1 m.size1) (min s2 m.size2)) :
    ∃ v, m.get dbg o (o.indexM major minor) (o.indexm major minor) = .ok v ∧
      resizeBody dbg o m s1 s2 major minor d =
        .ok (d.set (o.elementRaw (o.indexM major minor) s1 (o.indexm major minor) s2) v) := by
  have hb : o.indexM major minor < min s1 m.size1 ∧ o.indexm major minor < min s2 m.size2 := by
    cases o <;> simp_all [Orient.sizeM, Orient.sizem, Orient.indexM, Orient.indexm]
  generalize haa : o.indexM major minor = a at *
  generalize hbb : o.indexm major minor = b at *
  have ha1 : a < s1 := by omega
  have ha2 : a < m.size1 := by omega
  have hb1 : b < s2 := by omega
  have hb2 : b < m.size2 := by omega
  obtain ⟨h1, e1⟩ := get_eq dbg o m hw ha2 hb2
  refine ⟨_, e1, ?_⟩
  have h2 : o.elementRaw a s1 b s2 < d.length := by rw [hd]; exact elementRaw_lt o ha1 hb1
  simp only [resizeBody, haa, hbb, element_ok dbg o ha1 hb1, element_ok dbg o ha2 hb2, bind_ok, rd_ok h1, wr_ok h2]

/-- Relation between a partially filled temporary and the source: all pairs `(major', minor')` in the
done set hold the source's value. -/
theorem resizePreserve_spec (dbg : Bool) (o : Orient) (m tmp : Dense α) (hw : m.WF) (ht : tmp.WF) :
    ∃ m', resizePreserve dbg o m tmp = .ok m' ∧ m'.WF ∧ m'.size1 = tmp.size1 ∧ m'.size2 = tmp.size2 ∧
      ∀ a b, a < min tmp.size1 m.size1 → b < min tmp.size2 m.size2 →
        m'.get dbg o a b = m.get dbg o a b := by
  set S1 := tmp.size1 with hS1
  set S2 := tmp.size2 with hS2
  -- `done A B d`: cells for all (major,minor) with major < A, or major = A and minor < B
  let P : Nat → Nat → List α → Prop := fun A B d => d.length = S1 * S2 ∧
    ∀ major minor, major < o.sizeM (min S1 m.size1) (min S2 m.size2) →
      minor < o.sizem (min S1 m.size1) (min S2 m.size2) → (major < A ∨ (major = A ∧ minor < B)) →
      ∃ v, m.get dbg o (o.indexM major minor) (o.indexm major minor) = .ok v ∧
        d[o.elementRaw (o.indexM major minor) S1 (o.indexm major minor) S2]? = some v
  have step : ∀ A B d, A < o.sizeM (min S1 m.size1) (min S2 m.size2) →
      B < o.sizem (min S1 m.size1) (min S2 m.size2) → P A B d →
      ∃ d', resizeBody dbg o m S1 S2 A B d = .ok d' ∧ P A (B + 1) d' := by
    intro A B d hA hB hP
    obtain ⟨v, hv, he⟩ := resizeBody_eq dbg o m hw S1 S2 A B d hP.1 hA hB
    refine ⟨_, he, by simpa using hP.1, ?_⟩
    intro mj mn hmj hmn hdone
    have bnd : ∀ x y, x < o.sizeM (min S1 m.size1) (min S2 m.size2) →
        y < o.sizem (min S1 m.size1) (min S2 m.size2) →
        o.indexM x y < S1 ∧ o.indexm x y < S2 := by
      intro x y hx hy
      cases o <;> simp_all [Orient.sizeM, Orient.sizem, Orient.indexM, Orient.indexm]
    by_cases hcur : mj = A ∧ mn = B
    · obtain ⟨rfl, rfl⟩ := hcur
      refine ⟨v, hv, ?_⟩
      rw [List.getElem?_set_self]
      rw [hP.1]; exact elementRaw_lt o (bnd _ _ hA hB).1 (bnd _ _ hA hB).2
    · have hd' : mj < A ∨ (mj = A ∧ mn < B) := by omega
      obtain ⟨w, hw1, hw2⟩ := hP.2 mj mn hmj hmn hd'
      refine ⟨w, hw1, ?_⟩
      rw [List.getElem?_set_ne, hw2]
      intro heq
      have := elementRaw_inj o (bnd _ _ hA hB).1 (bnd _ _ hA hB).2 (bnd _ _ hmj hmn).1
        (bnd _ _ hmj hmn).2 heq
      apply hcur
      cases o <;> simp_all [Orient.indexM, Orient.indexm]
  obtain ⟨d, hd, hP⟩ := loop_inv (f := fun major d => loop (fun minor d =>
      resizeBody dbg o m S1 S2 major minor d) (o.sizem (min S1 m.size1) (min S2 m.size2)) d)
    (n := o.sizeM (min S1 m.size1) (min S2 m.size2)) (s := tmp.data)
    (fun A d => P A 0 d) ⟨ht, by intro _ _ _ _ h; omega⟩ (by
      intro A d hA hP
      obtain ⟨d', h1, h2⟩ := loop_inv (f := fun minor d => resizeBody dbg o m S1 S2 A minor d)
        (n := o.sizem (min S1 m.size1) (min S2 m.size2)) (s := d) (fun B d => P A B d) hP
        (fun B d hB hP => step A B d hA hB hP)
      refine ⟨d', h1, h2.1, ?_⟩
      intro mj mn hmj hmn hdone
      exact h2.2 mj mn hmj hmn (by omega))
  refine ⟨⟨S1, S2, d⟩, by simp [resizePreserve, ← hS1, ← hS2, hd], hP.1, rfl, rfl, ?_⟩
  intro a b ha hb
  have hwf' : (⟨S1, S2, d⟩ : Dense α).WF := hP.1
  obtain ⟨h1, e1⟩ := get_eq dbg o ⟨S1, S2, d⟩ hwf' (i := a) (j := b) (by simp; omega) (by simp; omega)
  rw [e1]
  have := hP.2 (o.indexM a b) (o.indexm a b)
    (by cases o <;> simp_all [Orient.sizeM, Orient.indexM])
    (by cases o <;> simp_all [Orient.sizem, Orient.indexm])
    (Or.inl (by cases o <;> simp_all [Orient.sizeM, Orient.indexM]))
  have e2 : o.indexM (o.indexM a b) (o.indexm a b) = a := by cases o <;> rfl
  have e3 : o.indexm (o.indexM a b) (o.indexm a b) = b := by cases o <;> rfl
  rw [e2, e3] at this
  obtain ⟨v, hv, hv'⟩ := this
  rw [hv]
  simp only at h1 ⊢
  rw [List.getElem?_eq_getElem h1] at hv'
  simpa using hv'

theorem mk'_wf (junk : Nat → α) (o : Orient) (s1 s2 : Nat) : (mk' junk o s1 s2).WF := by
  simp [mk', WF, Orient.storageSize]

end Ublas.Dense
