import Verif.Spec.HermitianProxy
import Verif.Props.Symmetric
import Verif.Props.SymAdaptor
/-! # C102: element references of hermitian matrices -/
namespace Ublas
open HermSpec
variable {σ α : Type}

/-- What the container of the proxies must provide: `Rep s n A`: container `s` shows the n×n matrix `A`. -/
structure HLaws (conj : α → α) (C : HCont σ α) (Rep : σ → Nat → (Nat → Nat → α) → Prop) : Prop where
  herm : ∀ s n A, Rep s n A → ∀ i j, i < n → j < n → i ≠ j → A j i = conj (A i j)
  load : ∀ s n A, Rep s n A → ∀ i j, i < n → j < n → C.load s i j = .ok (A i j)
  insert : ∀ s n A, Rep s n A → ∀ i j v, i < n → j < n → ∃ s', C.insert s i j v = .ok s' ∧ Rep s' n (hput conj i j v A)

namespace HLaws
variable {conj : α → α} {C : HCont σ α} {Rep : σ → Nat → (Nat → Nat → α) → Prop}

theorem ref (L : HLaws conj C Rep) {s : σ} {n : Nat} {A : Nat → Nat → α} (h : Rep s n A) {i j : Nat} (hi : i < n) (hj : j < n) : C.ref s i j = .ok ⟨i, j, A i j, false⟩ := by
  simp only [HCont.ref, L.load s n A h i j hi hj, bind_ok, pure_eq_ok]

theorem destroy (L : HLaws conj C Rep) {s : σ} {n : Nat} {A : Nat → Nat → α} (h : Rep s n A) {p : HProxy α} (hi : p.i < n) (hj : p.j < n) :
    ∃ s', p.destroy C s = .ok s' ∧ Rep s' n (if p.dirty = true then hput conj p.i p.j p.d A else A) := by
  unfold HProxy.destroy
  by_cases hd : p.dirty = true
  · obtain ⟨s', e, h'⟩ := L.insert s n A h p.i p.j p.d hi hj
    exact ⟨s', by rw [if_pos hd, e], by rw [if_pos hd]; exact h'⟩
  · exact ⟨s, by rw [if_neg hd], by rw [if_neg hd]; exact h⟩

theorem exec (L : HLaws conj C Rep) (hc : ∀ x, conj (conj x) = x) (rf : Bool) {s : σ} {n : Nat} {A : Nat → Nat → α} (h : Rep s n A) (x : HStmt α) (hl : legal n x)
    (hx : ¬ crossed conj rf x) : ∃ s', C.exec rf s x = .ok s' ∧ Rep s' n (stmt conj A x) := by
  cases x with
  | value i j F x =>
    obtain ⟨hi, hj⟩ := hl
    obtain ⟨s', e, h'⟩ := L.insert s n A h i j (F (A i j) x) hi hj
    exact ⟨s', by simp only [HCont.exec, L.ref h hi hj, bind_ok, HProxy.set, HProxy.destroy, if_true, e], h'⟩
  | elem i j F k l =>
    obtain ⟨hi, hj, hk, hl⟩ := hl
    obtain ⟨s', e, h'⟩ := L.insert s n A h i j (F (A i j) (A k l)) hi hj
    refine ⟨s', ?_, h'⟩
    cases rf <;> simp only [HCont.exec, L.ref h hi hj, L.ref h hk hl, bind_ok, HProxy.set, HProxy.destroy, if_true, Bool.false_eq_true, if_false, e]
  | swap i j k l =>
    obtain ⟨hi, hj, hk, hl⟩ := hl
    obtain ⟨s1, e1, h1⟩ := L.insert s n A h k l (A i j) hk hl
    obtain ⟨s2, e2, h2⟩ := L.insert s1 n _ h1 i j (A k l) hi hj
    refine ⟨s2, by simp only [HCont.exec, L.ref h hi hj, L.ref h hk hl, bind_ok, HProxy.destroy, if_true, Bool.false_eq_true, if_false, e1, e2], ?_⟩
    have : hput conj i j (A k l) (hput conj k l (A i j) A) = stmt conj A (.swap i j k l) := by
      funext a b
      have hm := fun hne => L.herm s n A h i j hi hj hne
      simp only [stmt, hput]
      by_cases h1 : k = i ∧ l = j
      · obtain ⟨rfl, rfl⟩ := h1
        split_ifs <;> rfl
      · by_cases h2 : k = j ∧ l = i
        · obtain ⟨rfl, rfl⟩ := h2
          by_cases hij : l = k
          · subst hij; split_ifs <;> rfl
          · rw [hm (fun e => hij e)]
            split_ifs <;> first | rfl | (exfalso; omega) | simp [hc]
        · split_ifs <;> first | rfl | (exfalso; omega)
    rw [← this]; exact h2
  | chain i j k l x =>
    obtain ⟨hi, hj, hk, hl⟩ := hl
    cases rf with
    | false =>
      obtain ⟨s1, e1, h1⟩ := L.insert s n A h k l x hk hl
      obtain ⟨s2, e2, h2⟩ := L.insert s1 n _ h1 i j x hi hj
      exact ⟨s2, by simp only [HCont.exec, L.ref h hi hj, L.ref h hk hl, bind_ok, HProxy.set, HProxy.destroy, if_true, Bool.false_eq_true, if_false, e1, e2], h2⟩
    | true =>
      obtain ⟨s1, e1, h1⟩ := L.insert s n A h i j x hi hj
      obtain ⟨s2, e2, h2⟩ := L.insert s1 n _ h1 k l x hk hl
      refine ⟨s2, by simp only [HCont.exec, L.ref h hi hj, L.ref h hk hl, bind_ok, HProxy.set, HProxy.destroy, if_true, e1, e2], ?_⟩
      have : hput conj k l x (hput conj i j x A) = stmt conj A (.chain i j k l x) := by
        simp only [crossed, true_and, not_and, Classical.not_not] at hx
        funext a b
        simp only [stmt, hput]
        by_cases h1 : k = i ∧ l = j
        · obtain ⟨rfl, rfl⟩ := h1
          split_ifs <;> rfl
        · by_cases h2 : k = j ∧ l = i
          · obtain ⟨rfl, rfl⟩ := h2
            by_cases hij : l = k
            · subst hij; split_ifs <;> rfl
            · have := hx rfl rfl hij
              split_ifs <;> first | rfl | (exfalso; omega) | simp [this]
          · split_ifs <;> first | rfl | (exfalso; omega)
      rw [← this]; exact h2

theorem execs (L : HLaws conj C Rep) (hc : ∀ x, conj (conj x) = x) (rf : Bool) {n : Nat} : ∀ (xs : List (HStmt α)) {s : σ} {A : Nat → Nat → α}, Rep s n A →
    (∀ x ∈ xs, legal n x ∧ ¬ crossed conj rf x) → ∃ s', C.execs rf s xs = .ok s' ∧ Rep s' n (stmts conj A xs) := by
  intro xs
  induction xs with
  | nil => intro s A h _; exact ⟨s, rfl, h⟩
  | cons x xs ih =>
    intro s A h hx
    obtain ⟨s1, e1, h1⟩ := L.exec hc rf h x (hx x (by simp)).1 (hx x (by simp)).2
    obtain ⟨s2, e2, h2⟩ := ih h1 fun y hy => hx y (by simp [hy])
    exact ⟨s2, by simp only [HCont.execs, e1, bind_ok, e2], h2⟩

/-! ## Blocks with named elements -/

/-- What the names still have to write. -/
def flush (conj : α → α) (A : Nat → Nat → α) : List (HProxy α) → Nat → Nat → α
  | [] => A
  | p :: ps => if p.dirty = true then hput conj p.i p.j p.d (flush conj A ps) else flush conj A ps

def places (ps : List (HProxy α)) : List (Nat × Nat) := ps.map fun p => (p.i, p.j)

theorem hput_hput (i j : Nat) (v w : α) (A : Nat → Nat → α) : hput conj i j v (hput conj i j w A) = hput conj i j v A := by
  funext a b; simp only [hput]; split_ifs <;> rfl

theorem hput_comm {i j k l : Nat} (h : ¬ SamePlace (i, j) (k, l)) (v w : α) (A : Nat → Nat → α) :
    hput conj i j v (hput conj k l w A) = hput conj k l w (hput conj i j v A) := by
  simp only [SamePlace, Prod.mk.injEq, not_or] at h
  funext a b; simp only [hput]; split_ifs <;> first | rfl | (exfalso; omega)

theorem hput_other {i j k l : Nat} (h : ¬ SamePlace (i, j) (k, l)) (v : α) (A : Nat → Nat → α) : hput conj i j v A k l = A k l := by
  simp only [SamePlace, Prod.mk.injEq, not_or] at h
  simp only [hput]
  rw [if_neg (by omega), if_neg (by omega)]

theorem hput_self (i j : Nat) (v : α) (A : Nat → Nat → α) : hput conj i j v A i j = v := by simp [hput]

theorem unbind (L : HLaws conj C Rep) {n : Nat} : ∀ (ps : List (HProxy α)) {s : σ} {A : Nat → Nat → α}, Rep s n A → (∀ p ∈ ps, p.i < n ∧ p.j < n) →
    ∃ s', C.unbind ps s = .ok s' ∧ Rep s' n (flush conj A ps) := by
  intro ps
  induction ps with
  | nil => intro s A h _; exact ⟨s, rfl, h⟩
  | cons p ps ih =>
    intro s A h hp
    obtain ⟨s1, e1, h1⟩ := ih h fun q hq => hp q (by simp [hq])
    obtain ⟨s2, e2, h2⟩ := L.destroy h1 (p := p) (hp p (by simp)).1 (hp p (by simp)).2
    exact ⟨s2, by simp only [HCont.unbind, e1, bind_ok, e2], h2⟩

theorem bind (L : HLaws conj C Rep) {s : σ} {n : Nat} {A : Nat → Nat → α} (h : Rep s n A) : ∀ (names : List (Nat × Nat)), (∀ x ∈ names, x.1 < n ∧ x.2 < n) →
    C.bind s names = .ok (names.map fun x => ⟨x.1, x.2, A x.1 x.2, false⟩) := by
  intro names
  induction names with
  | nil => intro _; rfl
  | cons x l ih =>
    intro hn
    obtain ⟨i, j⟩ := x
    have := hn (i, j) (by simp)
    simp only [HCont.bind, L.ref h this.1 this.2, bind_ok, ih fun y hy => hn y (by simp [hy]), pure_eq_ok, List.map_cons]

theorem flush_set : ∀ (ps : List (HProxy α)) (A : Nat → Nat → α) (k : Nat) (p : HProxy α) (v : α), (places ps).Pairwise (fun x y => ¬ SamePlace x y) → ps[k]? = some p →
    flush conj A (ps.set k { p with d := v, dirty := true }) = hput conj p.i p.j v (flush conj A ps) := by
  intro ps
  induction ps with
  | nil => intro A k p v _ h; simp at h
  | cons q ps ih =>
    intro A k p v hd h
    simp only [places, List.map_cons, List.pairwise_cons] at hd
    cases k with
    | zero =>
      simp only [List.getElem?_cons_zero, Option.some.injEq] at h
      subst h
      simp only [List.set_cons_zero, flush, if_true]
      split
      · rw [hput_hput]
      · rfl
    | succ k =>
      simp only [List.getElem?_cons_succ] at h
      have hne := hd.1 (p.i, p.j) (List.mem_map.2 ⟨p, List.mem_of_getElem? h, rfl⟩)
      simp only [List.set_cons_succ, flush]
      rw [ih A k p v hd.2 h]
      split
      · rw [hput_comm hne]
      · rfl

theorem runs (names : List (Nat × Nat)) (A0 : Nat → Nat → α) (hd : names.Pairwise fun x y => ¬ SamePlace x y) : ∀ (as : List (HAct α)) (ps : List (HProxy α)),
    places ps = names → (∀ p ∈ ps, flush conj A0 ps p.i p.j = p.d) → (∀ a ∈ as, actLegal names a) →
    ∃ ps', HAct.runs ps as = .ok ps' ∧ places ps' = names ∧ flush conj A0 ps' = acts conj names (flush conj A0 ps) as := by
  intro as
  induction as with
  | nil => intro ps hp _ _; exact ⟨ps, rfl, hp, rfl⟩
  | cons a as ih =>
    intro ps hp hv hl
    obtain ⟨h1, h2⟩ := hl a (by simp)
    have hlen : ps.length = names.length := by rw [← hp, places, List.length_map]
    obtain ⟨p, ep⟩ : ∃ p, ps[a.p]? = some p := ⟨_, List.getElem?_eq_getElem (by omega)⟩
    have enp : names[a.p]? = some (p.i, p.j) := by rw [← hp, places, List.getElem?_map, ep]; rfl
    obtain ⟨x, ex, ex'⟩ : ∃ x, a.x.value ps = .ok x ∧ act conj names (flush conj A0 ps) a = hput conj p.i p.j (a.F p.d x) (flush conj A0 ps) := by
      have hpd := hv p (List.mem_of_getElem? ep)
      cases hx : a.x with
      | const x => exact ⟨x, rfl, by simp only [act, enp, hx, hpd]⟩
      | name q =>
        rw [hx] at h2
        dsimp only at h2
        obtain ⟨r, er⟩ : ∃ r, ps[q]? = some r := ⟨_, List.getElem?_eq_getElem (by omega)⟩
        have enr : names[q]? = some (r.i, r.j) := by rw [← hp, places, List.getElem?_map, er]; rfl
        exact ⟨r.d, by simp only [HOperand.value, er], by simp only [act, enp, hx, enr, hpd, hv r (List.mem_of_getElem? er)]⟩
    have hdp : (places ps).Pairwise fun x y => ¬ SamePlace x y := by rw [hp]; exact hd
    have hf := flush_set (conj := conj) ps A0 a.p p (a.F p.d x) hdp ep
    have hpl : places (ps.set a.p (p.set a.F x)) = names := by
      rw [← hp, places, places, List.map_set]
      have : (p.set a.F x).i = p.i ∧ (p.set a.F x).j = p.j := ⟨rfl, rfl⟩
      rw [this.1, this.2]
      apply List.ext_getElem?
      intro m
      rw [List.getElem?_set]
      split
      · rename_i e
        subst e
        rw [List.getElem?_map, ep]; simp; omega
      · rfl
    have hv' : ∀ r ∈ ps.set a.p (p.set a.F x), flush conj A0 (ps.set a.p (p.set a.F x)) r.i r.j = r.d := by
      intro r hr
      change flush conj A0 (ps.set a.p { p with d := a.F p.d x, dirty := true }) r.i r.j = r.d
      rw [hf]
      obtain ⟨m, hm⟩ := List.getElem?_of_mem hr
      rw [List.getElem?_set] at hm
      by_cases hma : a.p = m
      · rw [if_pos hma, if_pos (by omega)] at hm
        simp only [Option.some.injEq] at hm
        subst hm
        exact hput_self _ _ _ _
      · rw [if_neg hma] at hm
        rw [hput_other ?_ _ _, hv r (List.mem_of_getElem? hm)]
        have em : names[m]? = some (r.i, r.j) := by rw [← hp, places, List.getElem?_map, hm]; rfl
        obtain ⟨l1, g1⟩ := List.getElem?_eq_some_iff.1 enp
        obtain ⟨l2, g2⟩ := List.getElem?_eq_some_iff.1 em
        have hpw := List.pairwise_iff_getElem.1 hd
        rcases Nat.lt_or_gt_of_ne hma with hlt | hgt
        · have := hpw _ _ l1 l2 hlt
          rwa [g1, g2] at this
        · have := hpw _ _ l2 l1 hgt
          rw [g1, g2] at this
          intro hs; apply this
          simp only [SamePlace, Prod.mk.injEq] at hs ⊢
          omega
    obtain ⟨ps', e, g1, g2⟩ := ih (ps.set a.p (p.set a.F x)) hpl hv' fun b hb => hl b (by simp [hb])
    refine ⟨ps', by simp only [HAct.runs, ex, bind_ok, ep, e], g1, ?_⟩
    rw [g2, acts, ex', ← hf]
    rfl

theorem block (L : HLaws conj C Rep) {s : σ} {n : Nat} {A : Nat → Nat → α} (h : Rep s n A) (names : List (Nat × Nat)) (hn : ∀ x ∈ names, x.1 < n ∧ x.2 < n)
    (hd : names.Pairwise fun x y => ¬ SamePlace x y) (body : List (HAct α)) (hb : ∀ a ∈ body, actLegal names a) :
    ∃ s', C.block s names body = .ok s' ∧ Rep s' n (acts conj names A body) := by
  have hfl : ∀ l : List (Nat × Nat), flush conj A (l.map fun x => (⟨x.1, x.2, A x.1 x.2, false⟩ : HProxy α)) = A := by
    intro l
    induction l with
    | nil => rfl
    | cons x l ih => simp only [List.map_cons, flush, Bool.false_eq_true, if_false]; exact ih
  obtain ⟨ps', e1, e2, e3⟩ := runs (conj := conj) names A hd body (names.map fun x => ⟨x.1, x.2, A x.1 x.2, false⟩) (by simp [places, Function.comp_def]) (by
    intro p hp
    rw [hfl]
    obtain ⟨x, _, rfl⟩ := List.mem_map.1 hp
    rfl) hb
  obtain ⟨s', e4, h4⟩ := L.unbind ps' h (by
    intro p hp
    have : (p.i, p.j) ∈ names := by rw [← e2, places]; exact List.mem_map.2 ⟨p, hp, rfl⟩
    exact hn _ this)
  refine ⟨s', by simp only [HCont.block, L.bind h names hn, bind_ok, e1, e4], ?_⟩
  rw [e3, hfl] at h4
  exact h4

end HLaws

/-! ## The two containers -/
open Packed PackedSpec

theorem hmat_laws (conj : α → α) (hc : ∀ x, conj (conj x) = x) (dbg : Bool) (t : Tri) (hk : t.kind = .lower) (o : Orient) :
    HLaws conj (SMat.hcont conj dbg t o) (fun m n A => HInv conj t o m ⟨n, fun a b => some (A a b)⟩) where
  herm := by
    intro m n A h i j hi hj hne
    by_cases hm : Mutable t i j
    · obtain ⟨x, _, e2, e3⟩ := h.2.2 i j hi hj hm
      rw [← e3 hne _ rfl, ← e2 _ rfl]
    · obtain ⟨hm', _⟩ := mutable_total t hk i j hm
      obtain ⟨x, _, e2, e3⟩ := h.2.2 j i hj hi hm'
      rw [← e3 hne.symm _ rfl, ← e2 _ rfl, hc]
  load := by
    intro m n A h i j hi hj
    have hn : m.size = n := h.2.1
    obtain ⟨v, e1, e2, _⟩ := (hinv_implements conj hc dbg t hk o m _ h).2 i j hi hj
    have := e2 _ rfl
    subst this
    exact (hload_eq conj (by omega) (by omega)).trans e1
  insert := by
    intro m n A h i j v hi hj
    obtain ⟨m', e, h'⟩ := hinsert_inv conj hc dbg t hk o m _ h i j v hi hj
    refine ⟨m', e, ?_⟩
    have : (fun a b => some (hput conj i j v A a b)) = fun a b => if a = i ∧ b = j then some v else if a = j ∧ b = i then some (conj v) else some (A a b) := by
      funext a b; simp only [hput]; split_ifs <;> rfl
    rw [this]; exact h'

theorem hmat_rep (conj : α → α) (dbg : Bool) (t : Tri) (hk : t.kind = .lower) (o : Orient) (m : SMat α) (hw : SWF t m) (A : Nat → Nat → α)
    (hA : ∀ i j, i < m.size → j < m.size → m.hget conj dbg t o i j = .ok (A i j)) : HInv conj t o m ⟨m.size, fun a b => some (A a b)⟩ := by
  refine ⟨hw, rfl, ?_⟩
  intro a b ha hb hab
  dsimp only at ha hb
  have hl : cellOf t o a m.size b m.size < m.data.length := by rw [hw]; exact cellOf_lt ha hb ((other_iff t a b).2 hab)
  have hx := List.getElem?_eq_getElem hl
  refine ⟨_, hx, ?_, ?_⟩
  · intro w e
    have := hA a b ha hb
    rw [hget_stored conj hk ha hb hab, rd_eq_ok.2 hx] at this
    simp only [Except.ok.injEq] at this
    rw [this]; simpa using e
  · intro hne w e
    have := hA b a hb ha
    rw [hget_mirror conj hk hb ha (mutable_antisymm t a b hab hne) hx] at this
    simp only [Except.ok.injEq] at this
    rw [this]; simpa using e

theorem hmat_obs (conj : α → α) (hc : ∀ x, conj (conj x) = x) (dbg : Bool) (t : Tri) (hk : t.kind = .lower) (o : Orient) (m : SMat α) (n : Nat) (A : Nat → Nat → α)
    (h : HInv conj t o m ⟨n, fun a b => some (A a b)⟩) : SWF t m ∧ m.size = n ∧ ∀ i j, i < n → j < n → m.hget conj dbg t o i j = .ok (A i j) := by
  refine ⟨h.1, h.2.1, fun i j hi hj => ?_⟩
  obtain ⟨v, e1, e2, _⟩ := (hinv_implements conj hc dbg t hk o m _ h).2 i j hi hj
  have := e2 _ rfl
  subst this
  exact e1

/-- **C102** (statements, hermitian_matrix; partial).  After any list of statements that assign, update, swap or chain-assign elements `m (i, j)` (both sides of the diagonal), the matrix shows what the statements say when elements are ordinary
variables with m(j,i) tied to conj m(i,j).  Missing: `m (i, j) = m (j, i) = x` when the right operand is evaluated first (refuted below). -/
theorem C102_statements_partial (conj : α → α) (hc : ∀ x, conj (conj x) = x) (dbg : Bool) (t : Tri) (hk : t.kind = .lower) (o : Orient) (m : SMat α) (hw : SWF t m) (A : Nat → Nat → α)
    (hA : ∀ i j, i < m.size → j < m.size → m.hget conj dbg t o i j = .ok (A i j)) (rightFirst : Bool) (xs : List (HStmt α)) (hl : ∀ x ∈ xs, legal m.size x ∧ ¬ crossed conj rightFirst x) :
    ∃ m', (SMat.hcont conj dbg t o).execs rightFirst m xs = .ok m' ∧ SWF t m' ∧ m'.size = m.size ∧
      ∀ i j, i < m.size → j < m.size → m'.hget conj dbg t o i j = .ok (stmts conj A xs i j) := by
  obtain ⟨m', e, h⟩ := (hmat_laws conj hc dbg t hk o).execs hc rightFirst xs (hmat_rep conj dbg t hk o m hw A hA) hl
  exact ⟨m', e, hmat_obs conj hc dbg t hk o m' _ _ h⟩

/-- **C102** (named elements, hermitian_matrix; partial).  A block that names elements, no two of them the same element or mirror images, works on the names and ends, has the effect it has on variables.
Missing: two names of one element, and uses of the matrix inside the block (refuted below). -/
theorem C102_block_partial (conj : α → α) (hc : ∀ x, conj (conj x) = x) (dbg : Bool) (t : Tri) (hk : t.kind = .lower) (o : Orient) (m : SMat α) (hw : SWF t m) (A : Nat → Nat → α)
    (hA : ∀ i j, i < m.size → j < m.size → m.hget conj dbg t o i j = .ok (A i j)) (names : List (Nat × Nat)) (hn : ∀ x ∈ names, x.1 < m.size ∧ x.2 < m.size)
    (hd : names.Pairwise fun x y => ¬ SamePlace x y) (body : List (HAct α)) (hb : ∀ a ∈ body, actLegal names a) :
    ∃ m', (SMat.hcont conj dbg t o).block m names body = .ok m' ∧ SWF t m' ∧ m'.size = m.size ∧
      ∀ i j, i < m.size → j < m.size → m'.hget conj dbg t o i j = .ok (acts conj names A body i j) := by
  obtain ⟨m', e, h⟩ := (hmat_laws conj hc dbg t hk o).block (hmat_rep conj dbg t hk o m hw A hA) names hn hd body hb
  exact ⟨m', e, hmat_obs conj hc dbg t hk o m' _ _ h⟩

open SymAd SymAdSpec in
theorem hadaptor_laws (cj : α → α) (hc : ∀ x, cj (cj x) = x) (dbg upper : Bool) (n0 : Nat) :
    HLaws cj (SymAd.hcont dbg upper cj n0) (fun a n A => n = n0 ∧ ∀ i j, A i j = if i = j ∨ stored upper i j then a i j else cj (a j i)) where
  herm := by
    rintro a n A ⟨rfl, h⟩ i j hi hj hne
    rw [h, h]
    unfold stored
    cases upper <;> simp only [Bool.false_eq_true, if_false, if_true] <;> split_ifs <;> first | rfl | (exfalso; omega) | rw [hc]
  load := by
    rintro a n A ⟨rfl, h⟩ i j hi hj
    have := C80_read dbg upper cj n a hi hj
    refine this.trans ?_
    rw [h]
    unfold shown
    by_cases hs : stored upper i j
    · rw [if_pos hs, if_pos (Or.inr hs)]
    · have hij : i ≠ j := by rintro rfl; apply hs; unfold stored; split <;> exact Nat.le_refl _
      rw [if_neg hs, if_neg (by tauto)]
  insert := by
    rintro a n A ⟨rfl, h⟩ i j v hi hj
    obtain ⟨b, e, hb⟩ := C80_insert_hermitian dbg upper cj hc n a v hi hj
    refine ⟨b, e, rfl, fun p q => ?_⟩
    have h1 := hb p q
    have hsh : ∀ (c : Nat → Nat → α), shown upper cj c p q = if p = q ∨ stored upper p q then c p q else cj (c q p) := by
      intro c
      unfold shown
      by_cases hs : stored upper p q
      · rw [if_pos hs, if_pos (Or.inr hs)]
      · have hij : p ≠ q := by rintro rfl; apply hs; unfold stored; split <;> exact Nat.le_refl _
        rw [if_neg hs, if_neg (by tauto)]
    rw [← hsh b, h1]
    simp only [hput]
    rw [h p q, hsh a]

open SymAd SymAdSpec in
/-- **C102** (hermitian_adaptor; partial, as for hermitian_matrix).  Statements and blocks on the elements of an adaptor of an n×n dense matrix with elements `a`. -/
theorem C102_adaptor_partial (cj : α → α) (hc : ∀ x, cj (cj x) = x) (dbg upper : Bool) (n : Nat) (a : Nat → Nat → α) (rightFirst : Bool) :
    (∀ (xs : List (HStmt α)), (∀ x ∈ xs, legal n x ∧ ¬ crossed cj rightFirst x) →
      ∃ b, (SymAd.hcont dbg upper cj n).execs rightFirst a xs = .ok b ∧ ∀ i j, shown upper cj b i j = stmts cj (shown upper cj a) xs i j) ∧
    (∀ (names : List (Nat × Nat)) (body : List (HAct α)), (∀ x ∈ names, x.1 < n ∧ x.2 < n) → names.Pairwise (fun x y => ¬ SamePlace x y) → (∀ x ∈ body, actLegal names x) →
      ∃ b, (SymAd.hcont dbg upper cj n).block a names body = .ok b ∧ ∀ i j, shown upper cj b i j = acts cj names (shown upper cj a) body i j) := by
  have hsh : ∀ (c : Nat → Nat → α) p q, shown upper cj c p q = if p = q ∨ stored upper p q then c p q else cj (c q p) := by
    intro c p q
    unfold shown
    by_cases hs : stored upper p q
    · rw [if_pos hs, if_pos (Or.inr hs)]
    · have hij : p ≠ q := by rintro rfl; apply hs; unfold stored; split <;> exact Nat.le_refl _
      rw [if_neg hs, if_neg (by tauto)]
  have L := hadaptor_laws cj hc dbg upper n
  refine ⟨fun xs hx => ?_, fun names body h1 h2 h3 => ?_⟩
  · obtain ⟨b, e, _, h⟩ := L.execs hc rightFirst xs (s := a) (A := shown upper cj a) ⟨rfl, hsh a⟩ hx
    exact ⟨b, e, fun i j => by rw [h, hsh]⟩
  · obtain ⟨b, e, _, h⟩ := L.block (s := a) (A := shown upper cj a) ⟨rfl, hsh a⟩ names h1 h2 body h3
    exact ⟨b, e, fun i j => by rw [h, hsh]⟩

/-- Gaussian integers with their conjugation, for the examples. -/
def gconj (z : Int × Int) : Int × Int := (z.1, - z.2)

/-- **C102** refuted part.  (1) `m (0, 1) = m (1, 0) = 1 + 2i`, right operand first (C++17), leaves m(0,1) = 1 - 2i; evaluated left operand first it is 1 + 2i.
(2) Two names of one element: `auto &&r = m (1, 0), &&s = m (1, 0); r += 1; s += 10;` increases m(1,0) by 1 only: the last name is written back first, and then overwritten.
(3) A name and its mirror image: after `auto &&r = m (1, 0), &&s = m (0, 1); s = 9; r = r + s`, `r` has not seen the assignment to `s`. -/
theorem C102_refuted (dbg : Bool) :
    let t : Tri := ⟨.lower, false⟩
    let m : SMat (Int × Int) := ⟨2, [(1, 0), (2, 3), (4, 0)]⟩
    let C := SMat.hcont gconj dbg t .row
    let add : Int × Int → Int × Int → Int × Int := fun a b => (a.1 + b.1, a.2 + b.2)
    (C.exec true m (.chain 0 1 1 0 (1, 2)) >>= fun m' => m'.hget gconj dbg t .row 0 1) = .ok (1, -2) ∧
    (C.exec false m (.chain 0 1 1 0 (1, 2)) >>= fun m' => m'.hget gconj dbg t .row 0 1) = .ok (1, 2) ∧
    (C.block m [(1, 0), (1, 0)] [⟨0, add, .const (1, 0)⟩, ⟨1, add, .const (10, 0)⟩] >>= fun m' => m'.hget gconj dbg t .row 1 0) = .ok (3, 3) ∧
    (C.block m [(1, 0), (0, 1)] [⟨1, fun _ x => x, .const (9, 0)⟩, ⟨0, add, .name 1⟩] >>= fun m' => m'.hget gconj dbg t .row 1 0) = .ok (11, 3) := by
  cases dbg <;> decide

/-- The hypotheses are met, also by statements that cross the diagonal. -/
example : ∃ m', (SMat.hcont gconj true ⟨.lower, false⟩ .row).execs true (⟨2, [(1, 0), (2, 3), (4, 0)]⟩ : SMat (Int × Int))
      [.value 0 1 (fun _ x => x) (5, 6), .swap 0 1 1 0, .elem 0 0 (fun a b => (a.1 + b.1, a.2 + b.2)) 1 0] = .ok m' ∧
    m'.hget gconj true ⟨.lower, false⟩ .row 0 1 = .ok (5, -6) ∧ m'.hget gconj true ⟨.lower, false⟩ .row 0 0 = .ok (6, 6) ∧ SWF ⟨.lower, false⟩ m' :=
  ⟨⟨2, [(6, 6), (5, 6), (4, 0)]⟩, by decide, by decide, by decide, rfl⟩

end Ublas
