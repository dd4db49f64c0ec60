import Verif.Model.Expr
import Verif.Props.Prod
/-! # C48: element-wise expressions evaluate pointwise, by element access and by iterators; C67: reverse iteration -/
namespace Ublas
open Expr
variable {R : Type} [Semiring R]

/-- The iterator stands at the first visited index that is at least `i`. -/
def Expr.At (l : List (Nat × R)) (i p : Nat) : Prop :=
  p ≤ l.length ∧ ∀ (k : Nat) q, l[k]? = some q → (k < p → q.1 < i) ∧ (p ≤ k → i ≤ q.1)

theorem sorted_get {l : List (Nat × R)} (h : (l.map (·.1)).Pairwise (· < ·)) {j k : Nat} {p q : Nat × R} (hj : l[j]? = some p) (hk : l[k]? = some q) (hjk : j < k) : p.1 < q.1 := by
  rw [List.pairwise_map] at h
  obtain ⟨hj', rfl⟩ := List.getElem?_eq_some_iff.1 hj
  obtain ⟨hk', rfl⟩ := List.getElem?_eq_some_iff.1 hk
  exact List.pairwise_iff_getElem.1 h j k hj' hk' hjk

theorem At.valAt_eq {a : Seq R} {n : Nat} {v : Nat → R} (ha : a.Presents n v) {i p : Nat} (hi : i < n) (h : At a.els i p) : valAt a.els p i = v i := by
  have hz : (∀ q ∈ a.els, q.1 ≠ i) → v i = 0 := fun hq => ha.skipped i hi fun hm => by
    obtain ⟨q, hq1, hq2⟩ := List.mem_map.1 hm
    exact hq q hq1 hq2
  unfold valAt
  cases hp : a.els[p]? with
  | none =>
    refine (hz fun q hq => ?_).symm
    obtain ⟨k, hk⟩ := List.mem_iff_getElem?.1 hq
    have hkl := (List.getElem?_eq_some_iff.1 hk).1
    have := (h.2 k q hk).1 (by have := List.getElem?_eq_none_iff.1 hp; omega)
    omega
  | some q =>
    by_cases hqi : q.1 = i
    · simp only [if_pos hqi]
      rw [(ha.vals q (List.mem_of_getElem? hp)).2, hqi]
    · simp only [if_neg hqi]
      refine (hz fun q' hq' => ?_).symm
      obtain ⟨k, hk⟩ := List.mem_iff_getElem?.1 hq'
      have h1 := h.2 k q' hk
      have h2 := (h.2 p q hp).2 (Nat.le_refl _)
      rcases Nat.lt_trichotomy k p with hkp | hkp | hkp
      · have := h1.1 hkp; omega
      · subst hkp; rw [hp] at hk; cases hk; exact hqi
      · have := sorted_get ha.sorted hp hk hkp; omega

theorem At.adv {l : List (Nat × R)} (hs : (l.map (·.1)).Pairwise (· < ·)) {i p : Nat} (h : At l i p) : At l (i + 1) (adv l p i) := by
  unfold Expr.adv
  cases hp : l[p]? with
  | none =>
    simp only
    refine ⟨h.1, fun k q hk => ?_⟩
    have hkl := (List.getElem?_eq_some_iff.1 hk).1
    have := (h.2 k q hk).1
    have hpl := List.getElem?_eq_none_iff.1 hp
    exact ⟨fun hkp => by have := this hkp; omega, fun _ => by omega⟩
  | some q =>
    have hpl := (List.getElem?_eq_some_iff.1 hp).1
    have hq := (h.2 p q hp).2 (Nat.le_refl _)
    simp only
    split
    · refine ⟨by omega, fun k q' hk => ⟨fun hkp => ?_, fun hkp => ?_⟩⟩
      · rcases Nat.lt_or_ge k p with h' | h'
        · have := (h.2 k q' hk).1 h'; omega
        · have : k = p := by omega
          subst this; rw [hp] at hk; cases hk; omega
      · have := sorted_get hs hp hk (by omega); omega
    · refine ⟨h.1, fun k q' hk => ⟨fun hkp => ?_, fun hkp => ?_⟩⟩
      · have := (h.2 k q' hk).1 hkp; omega
      · rcases Nat.lt_or_ge p k with h' | h'
        · have := sorted_get hs hp hk h'; omega
        · have : k = p := by omega
          subst this; rw [hp] at hk; cases hk; omega

/-- Moving the index up to the next visited element. -/
theorem At.jump {l : List (Nat × R)} (hs : (l.map (·.1)).Pairwise (· < ·)) {i p m n : Nat} (h : At l i p) (him : i ≤ m) (hm : m ≤ idxAt l p n) : At l m p := by
  refine ⟨h.1, fun k q hk => ⟨fun hkp => by have := (h.2 k q hk).1 hkp; omega, fun hkp => ?_⟩⟩
  unfold idxAt at hm
  have hpl : p < l.length := by have := (List.getElem?_eq_some_iff.1 hk).1; omega
  rw [List.getElem?_eq_getElem hpl] at hm
  simp only at hm
  rcases Nat.lt_or_ge p k with h' | h'
  · have := sorted_get hs (List.getElem?_eq_getElem hpl) hk h'; omega
  · have : k = p := by omega
    subst this
    rw [List.getElem?_eq_getElem hpl] at hk; cases hk; exact hm

theorem At.le_idxAt {l : List (Nat × R)} {i p n : Nat} (h : At l i p) (hin : i ≤ n) : i ≤ idxAt l p n := by
  unfold idxAt
  cases hp : l[p]? with
  | none => exact hin
  | some q => exact (h.2 p q hp).2 (Nat.le_refl _)

theorem idxAt_le {a : Seq R} {n : Nat} {v : Nat → R} (ha : a.Presents n v) (p : Nat) : idxAt a.els p n ≤ n := by
  unfold idxAt
  cases hp : a.els[p]? with
  | none => exact Nat.le_refl _
  | some q => exact Nat.le_of_lt (ha.vals q (List.mem_of_getElem? hp)).1

theorem At.begin_ {a : Seq R} {n : Nat} {v : Nat → R} (ha : a.Presents n v) {m : Nat} (hm : m ≤ idxAt a.els 0 n) : At a.els m 0 :=
  At.jump ha.sorted (i := 0) (n := n) ⟨Nat.zero_le _, fun k q _ => ⟨fun h => by omega, fun _ => Nat.zero_le _⟩⟩ (Nat.zero_le _) hm

/-- An index in the list that is at least `i` is not below the iterator's element. -/
theorem At.mem_ge {l : List (Nat × R)} {i p n j : Nat} (h : At l i p) (hs : (l.map (·.1)).Pairwise (· < ·)) (hj : j ∈ l.map (·.1)) (hij : i ≤ j) : idxAt l p n ≤ j := by
  obtain ⟨q, hq, rfl⟩ := List.mem_map.1 hj
  obtain ⟨k, hk⟩ := List.mem_iff_getElem?.1 hq
  have hpk : p ≤ k := by
    by_contra hc
    have := (h.2 k q hk).1 (by omega); omega
  have hpl : p < l.length := by have := (List.getElem?_eq_some_iff.1 hk).1; omega
  unfold idxAt
  rw [List.getElem?_eq_getElem hpl]
  rcases Nat.lt_or_ge p k with h' | h'
  · exact Nat.le_of_lt (sorted_get hs (List.getElem?_eq_getElem hpl) hk h')
  · have : k = p := by omega
    subst this
    rw [List.getElem?_eq_getElem hpl] at hk; cases hk; exact Nat.le_refl _

variable {a b : Seq R} {n : Nat} {v w : Nat → R}

/-- Traversal of the merged expression from a state that stands at index `s.i`. -/
theorem walk_merge (ha : a.Presents n v) (hb : b.Presents n w) (f : R → R → R) (c : Cat) (hc : c ≠ .dense) : ∀ (fuel : Nat) (s : BIt), n - s.i < fuel → s.i ≤ n →
    At a.els s.i s.p1 → At b.els s.i s.p2 →
    ∃ L, walk c f n a.els b.els fuel s = .ok L ∧ (L.map (·.1)).Pairwise (· < ·) ∧ (∀ q ∈ L, s.i ≤ q.1 ∧ q.1 < n ∧ q.2 = f (v q.1) (w q.1)) ∧
      (∀ j, (j ∈ a.els.map (·.1) ∨ j ∈ b.els.map (·.1)) → s.i ≤ j → (s.i = j ∨ s.i < j) → j ∈ L.map (·.1)) ∧
      (c = .packed → L.map (·.1) = List.range' s.i (n - s.i)) := by
  intro fuel
  induction fuel with
  | zero => intro s h; omega
  | succ k ih =>
    intro s hk hin h1 h2
    have hlt : ∀ j, (j ∈ a.els.map (·.1) ∨ j ∈ b.els.map (·.1)) → j < n := by
      rintro j (hj | hj)
      · obtain ⟨q, hq, rfl⟩ := List.mem_map.1 hj; exact (ha.vals q hq).1
      · obtain ⟨q, hq, rfl⟩ := List.mem_map.1 hj; exact (hb.vals q hq).1
    by_cases he : s.i = n
    · refine ⟨[], by simp [walk, he], List.Pairwise.nil, by simp, fun j hj hij _ => ?_, fun _ => by simp [he]⟩
      have := hlt j hj; omega
    · have hi : s.i < n := by omega
      have hd : deref c f a.els b.els s = .ok (f (v s.i) (w s.i)) := by
        unfold deref
        cases c with
        | dense => exact absurd rfl hc
        | packed => simp only [At.valAt_eq ha hi h1, At.valAt_eq hb hi h2]
        | sparse => simp only [At.valAt_eq ha hi h1, At.valAt_eq hb hi h2]
      have g1 := At.adv ha.sorted h1
      have g2 := At.adv hb.sorted h2
      have hnext : ∃ s', inc c n a.els b.els s = s' ∧ s.i < s'.i ∧ s'.i ≤ n ∧ At a.els s'.i s'.p1 ∧ At b.els s'.i s'.p2 ∧ (c = .packed → s'.i = s.i + 1) ∧
          ∀ j, (j ∈ a.els.map (·.1) ∨ j ∈ b.els.map (·.1)) → s.i < j → s'.i ≤ j := by
        cases c with
        | dense => exact absurd rfl hc
        | packed => exact ⟨_, rfl, Nat.lt_succ_self _, hi, g1, g2, fun _ => rfl, fun j _ hj => hj⟩
        | sparse =>
          have l1 := At.le_idxAt g1 (n := n) hi
          have l2 := At.le_idxAt g2 (n := n) hi
          refine ⟨_, rfl, ?_, ?_, ?_, ?_, (fun h => absurd h (by simp)), fun j hj hij => ?_⟩
          · show s.i < min _ _; omega
          · have := idxAt_le ha (adv a.els s.p1 s.i); show min _ _ ≤ n; omega
          · exact At.jump ha.sorted g1 (by show _ ≤ min _ _; omega) (by show min _ _ ≤ _; exact Nat.min_le_left _ _)
          · exact At.jump hb.sorted g2 (by show _ ≤ min _ _; omega) (by show min _ _ ≤ _; exact Nat.min_le_right _ _)
          · show min _ _ ≤ j
            rcases hj with hj | hj
            · exact Nat.le_trans (Nat.min_le_left _ _) (At.mem_ge g1 ha.sorted hj hij)
            · exact Nat.le_trans (Nat.min_le_right _ _) (At.mem_ge g2 hb.sorted hj hij)
      obtain ⟨s', e', n1, n2, n3, n4, n5, n6⟩ := hnext
      obtain ⟨L, eL, L1, L2, L3, L4⟩ := ih s' (by omega) n2 n3 n4
      refine ⟨(s.i, f (v s.i) (w s.i)) :: L, ?_, ?_, ?_, ?_, ?_⟩
      · simp only [walk, he, if_false, hd, bind_ok, e', eL, pure_eq_ok]
      · rw [List.map_cons, List.pairwise_cons]
        refine ⟨fun j hj => ?_, L1⟩
        obtain ⟨q, hq, rfl⟩ := List.mem_map.1 hj
        have := (L2 q hq).1; simp only; omega
      · intro q hq
        rcases List.mem_cons.1 hq with rfl | hq
        · exact ⟨Nat.le_refl _, hi, rfl⟩
        · have := L2 q hq; exact ⟨by omega, this.2.1, this.2.2⟩
      · intro j hj hij hor
        rw [List.map_cons, List.mem_cons]
        rcases hor with rfl | hlt'
        · exact .inl rfl
        · have := n6 j hj hlt'
          exact .inr (L3 j hj this (by omega))
      · intro hp
        rw [List.map_cons, L4 hp, n5 hp]
        obtain ⟨m, hm⟩ : ∃ m, n - s.i = m + 1 := ⟨n - s.i - 1, by omega⟩
        rw [hm, List.range'_succ]
        congr 2; omega

/-- Traversal when both operands are dense. -/
theorem walk_dense (ha : a.Presents n v) (hb : b.Presents n w) (hda : a.cat = .dense) (hdb : b.cat = .dense) (f : R → R → R) : ∀ (fuel i : Nat), n - i < fuel → i ≤ n →
    ∃ L, walk .dense f n a.els b.els fuel ⟨i, i, i⟩ = .ok L ∧ L.map (·.1) = List.range' i (n - i) ∧ ∀ q ∈ L, q.1 < n ∧ q.2 = f (v q.1) (w q.1) := by
  have hget : ∀ {c : Seq R} {u : Nat → R}, c.Presents n u → c.cat = .dense → ∀ i, i < n → c.els[i]? = some (i, u i) := by
    intro c u hc hd i hi
    have hm := hc.dense hd
    have hl : c.els.length = n := by have := congrArg List.length hm; simpa using this
    have h1 : (c.els.map (·.1))[i]? = some i := by rw [hm, List.getElem?_range hi]
    rw [List.getElem?_map, Option.map_eq_some_iff] at h1
    obtain ⟨q, hq, hq1⟩ := h1
    rw [hq, ← hq1, ← (hc.vals q (List.mem_of_getElem? hq)).2]
  intro fuel
  induction fuel with
  | zero => intro i h; omega
  | succ k ih =>
    intro i hk hin
    by_cases he : i = n
    · exact ⟨[], by simp [walk, he], by simp [he], by simp⟩
    · have hi : i < n := by omega
      obtain ⟨L, e1, e2, e3⟩ := ih (i + 1) (by omega) hi
      refine ⟨(i, f (v i) (w i)) :: L, ?_, ?_, ?_⟩
      · simp only [walk, he, if_false, deref, hget ha hda i hi, hget hb hdb i hi, bind_ok, inc, e1, pure_eq_ok]
      · rw [List.map_cons, e2]
        obtain ⟨m, hm⟩ : ∃ m, n - i = m + 1 := ⟨n - i - 1, by omega⟩
        rw [hm, List.range'_succ]
        congr 2; omega
      · intro q hq
        rcases List.mem_cons.1 hq with rfl | hq
        · exact ⟨hi, rfl⟩
        · exact e3 q hq

/-- **C48** (merge iterators): what `[begin (), end ())` of `e1 op e2` visits. -/
theorem binEls_presents (ha : a.Presents n v) (hb : b.Presents n w) (f : R → R → R) (hf : (a.cat = .dense ∧ b.cat = .dense) ∨ f 0 0 = 0) :
    ∃ L, binEls f a b n = .ok L ∧ ∀ get : Nat → M R, (∀ i, i < n → get i = .ok (f (v i) (w i))) →
      (⟨n, a.cat.restrict b.cat, L, get⟩ : Seq R).Presents n (fun i => f (v i) (w i)) := by
  unfold binEls
  by_cases hd : a.cat = .dense ∧ b.cat = .dense
  · have h0 : (begin_ n a.els b.els) = ⟨0, 0, 0⟩ := by
      have : ∀ {c : Seq R} {u : Nat → R}, c.Presents n u → c.cat = .dense → idxAt c.els 0 n = 0 := by
        intro c u hc hdc
        unfold idxAt
        have hm := hc.dense hdc
        rcases Nat.eq_zero_or_pos n with h | h
        · subst h; simp only [List.range_zero, List.map_eq_nil_iff] at hm; simp [hm]
        · have h1 : (c.els.map (·.1))[0]? = some 0 := by rw [hm, List.getElem?_range h]
          rw [List.getElem?_map, Option.map_eq_some_iff] at h1
          obtain ⟨q, hq, hq1⟩ := h1
          rw [hq]; exact hq1
      simp [begin_, this ha hd.1, this hb hd.2]
    have hcat : a.cat.restrict b.cat = .dense := by rw [hd.1, hd.2]; rfl
    obtain ⟨L, e1, e2, e3⟩ := walk_dense ha hb hd.1 hd.2 f (n + 1) 0 (by omega) (Nat.zero_le _)
    rw [h0, hcat]
    refine ⟨L, e1, fun get hget => ?_⟩
    have hr : L.map (·.1) = List.range n := by rw [e2, List.range_eq_range', Nat.sub_zero]
    exact { size := rfl, at_ := hget, vals := e3, sorted := by show (L.map _).Pairwise _; rw [hr]; exact List.pairwise_lt_range,
            skipped := fun i hi hm => absurd (by rw [hr]; simpa using hi) hm,
            packed := fun _ => ⟨0, by
              show L.map _ = _
              rw [e2, Nat.sub_zero]; congr 1
              have := congrArg List.length hr; simpa using this.symm⟩,
            dense := fun _ => hr }
  · have hf0 : f 0 0 = 0 := hf.resolve_left hd
    have hc : a.cat.restrict b.cat ≠ .dense := by
      revert hd; cases a.cat <;> cases b.cat <;> simp [Cat.restrict]
    have hbi : (begin_ n a.els b.els).i ≤ n := Nat.le_trans (Nat.min_le_left _ _) (idxAt_le ha 0)
    obtain ⟨L, e1, e2, e3, e4, e5⟩ := walk_merge ha hb f _ hc (n + 1) (begin_ n a.els b.els) (by omega) hbi
      (At.begin_ ha (Nat.min_le_left _ _)) (At.begin_ hb (Nat.min_le_right _ _))
    refine ⟨L, e1, fun get hget => ?_⟩
    refine { size := rfl, at_ := hget, vals := fun q hq => (e3 q hq).2, sorted := e2, skipped := fun i hi hm => ?_, packed := fun hp => ?_, dense := fun h => absurd h hc }
    · have hno : ∀ {c : Seq R} {u : Nat → R}, c.Presents n u → (begin_ n a.els b.els).i ≤ idxAt c.els 0 n → (∀ j ∈ c.els.map (·.1), (begin_ n a.els b.els).i ≤ j → j ∈ L.map (·.1)) → u i = 0 := by
        intro c u hc' hle hall
        refine hc'.skipped i hi fun hmem => hm (hall i hmem ?_)
        have := At.mem_ge (At.begin_ hc' (Nat.le_refl _)) hc'.sorted (n := n) hmem
        have h0 : At c.els 0 0 := ⟨Nat.zero_le _, fun k q _ => ⟨fun h => by omega, fun _ => Nat.zero_le _⟩⟩
        have := At.mem_ge h0 hc'.sorted (n := n) hmem (Nat.zero_le _)
        omega
      rw [hno ha (Nat.min_le_left _ _) (fun j hj hij => e4 j (.inl hj) hij (by omega)), hno hb (Nat.min_le_right _ _) (fun j hj hij => e4 j (.inr hj) hij (by omega)), hf0]
    · have hp' : a.cat.restrict b.cat = .packed := by
        revert hc hp; show _ → a.cat.restrict b.cat ≠ .sparse → _
        cases a.cat.restrict b.cat <;> simp
      refine ⟨(begin_ n a.els b.els).i, ?_⟩
      show L.map _ = _
      rw [e5 hp']; congr 1
      have := congrArg List.length (e5 hp'); simpa using this.symm

/-- **C48** for `v + w`, `v - w`, `element_prod`, `element_div`.  A functor with `f 0 0 ≠ 0` (division) needs dense operands: the iterators of other
expressions skip positions that neither operand stores. -/
theorem C48_binary (dbg : Bool) (f : R → R → R) (ha : a.Presents n v) (hb : b.Presents n w) (hf : (a.cat = .dense ∧ b.cat = .dense) ∨ f 0 0 = 0) :
    ∃ q, binary dbg f a b = .ok q ∧ q.Presents n (fun i => f (v i) (w i)) := by
  obtain ⟨L, e, h⟩ := binEls_presents ha hb f hf
  have hs : same dbg a.size b.size = .ok n := by
    simp only [same, ha.size, hb.size, check_True, bind_ok, Nat.min_self, pure_eq_ok]
  refine ⟨_, ?_, h (fun i => do
      let x ← a.at_ i
      let y ← b.at_ i
      .ok (f x y)) ?_⟩
  · simp only [binary, hs, e, bind_ok, pure_eq_ok]
  · intro i hi
    simp only [ha.at_ i hi, hb.at_ i hi, bind_ok]

/-- Operands of different sizes are rejected when checks are on. -/
theorem C48_size_mismatch (f : R → R → R) (a b : Seq R) (h : a.size ≠ b.size) : binary true f a b = .error .badArgument := by
  simp only [binary, same, check_dbg_false h, bind_error]

/-- **C48** for `- v`, `conj v`, `t * v`, `v * t`, `v / t`. -/
theorem C48_unary (F : R → R) (ha : a.Presents n v) (hF : a.cat = .dense ∨ F 0 = 0) : (unary F a).Presents n (fun i => F (v i)) := by
  have hm : (unary F a).els.map (·.1) = a.els.map (·.1) := by simp [unary, Function.comp_def]
  refine { size := ha.size, at_ := fun i hi => ?_, vals := fun p hp => ?_, sorted := by rw [hm]; exact ha.sorted, skipped := fun i hi h => ?_, packed := fun hc => ?_,
           dense := fun hd => by rw [hm]; exact ha.dense hd }
  · show (do let x ← a.at_ i; .ok (F x) : M R) = _
    rw [ha.at_ i hi]; rfl
  · simp only [unary, List.mem_map] at hp
    obtain ⟨q, hq, rfl⟩ := hp
    obtain ⟨h1, h2⟩ := ha.vals q hq
    exact ⟨h1, by rw [h2]⟩
  · rw [hm] at h
    rcases hF with hF | hF
    · rw [ha.dense hF] at h; exact absurd (by simpa using hi) h
    · rw [ha.skipped i hi h, hF]
  · obtain ⟨off, ho⟩ := ha.packed hc
    exact ⟨off, by rw [hm, ho]; simp [unary]⟩

/-- The element-wise value of an expression tree whose leaves are the given vectors. -/
def Expr.VE.value (env : Seq R → Nat → R) : VE R → Nat → R
  | .leaf s => env s
  | .un F e => fun i => F (e.value env i)
  | .bin f e1 e2 => fun i => f (e1.value env i) (e2.value env i)

/-- Every leaf is a vector of size `n`, and every functor maps zeros to zero. -/
def Expr.VE.Ok (n : Nat) (env : Seq R → Nat → R) : VE R → Prop
  | .leaf s => s.Presents n (env s)
  | .un F e => F 0 = 0 ∧ e.Ok n env
  | .bin f e1 e2 => f 0 0 = 0 ∧ e1.Ok n env ∧ e2.Ok n env

/-- **C48**.  Every nested combination of element-wise operations, over leaves of any storage category and sparsity pattern, evaluates to the mathematical
element at every index, by element access and by iteration. -/
theorem C48_expression_tree (dbg : Bool) (n : Nat) (env : Seq R → Nat → R) (e : VE R) (h : e.Ok n env) :
    ∃ q, e.build dbg = .ok q ∧ q.Presents n (e.value env) := by
  induction e with
  | leaf s => exact ⟨s, rfl, h⟩
  | un F e ih =>
    obtain ⟨q, e1, h1⟩ := ih h.2
    exact ⟨unary F q, by simp only [VE.build, e1, bind_ok], C48_unary F h1 (.inr h.1)⟩
  | bin f e1 e2 ih1 ih2 =>
    obtain ⟨q1, b1, h1⟩ := ih1 h.2.1
    obtain ⟨q2, b2, h2⟩ := ih2 h.2.2
    obtain ⟨q, b3, h3⟩ := C48_binary dbg f h1 h2 (.inr h.1)
    exact ⟨q, by simp only [VE.build, b1, b2, bind_ok, b3], h3⟩

/-! ## Matrices -/

theorem Seq.Presents.cast {s : Seq R} {n : Nat} {v : Nat → R} {cat : Cat} {els : List (Nat × R)} {at_ : Nat → M R} (h : s.Presents n v) (h1 : s.cat = cat) (h2 : s.els = els)
    (h3 : s.at_ = at_) : (⟨n, cat, els, at_⟩ : Seq R).Presents n v := by
  subst h1 h2 h3
  have := h.size
  subst this
  exact h

/-- **C48** for `- m`, `conj m`, `t * m`, … -/
theorem C48_matrix_unary (F : R → R) {m : MSeq R} {r c : Nat} {x : Nat → Nat → R} (h : m.Presents r c x) (hF : F 0 = 0) :
    (munary F m).Presents r c (fun i j => F (x i j)) where
  size1 := h.size1
  size2 := h.size2
  rows i hi := (C48_unary F (h.rows i hi) (.inr hF))
  cols j hj := (C48_unary F (h.cols j hj) (.inr hF))

/-- **C48** for `trans m`, `herm m`. -/
theorem C48_matrix_trans (F : R → R) {m : MSeq R} {r c : Nat} {x : Nat → Nat → R} (h : m.Presents r c x) (hF : F 0 = 0) :
    (mtrans F m).Presents c r (fun i j => F (x j i)) where
  size1 := h.size2
  size2 := h.size1
  rows i hi := (C48_unary F (h.cols i hi) (.inr hF))
  cols j hj := (C48_unary F (h.rows j hj) (.inr hF))

/-- **C48** for `m + k`, `m - k`, `element_prod`. -/
theorem C48_matrix_binary (dbg : Bool) (f : R → R → R) {x y : MSeq R} {r c : Nat} {u z : Nat → Nat → R} (hx : x.Presents r c u) (hy : y.Presents r c z) (hf : f 0 0 = 0) :
    ∃ m, MBinary dbg f x y m ∧ m.Presents r c (fun i j => f (u i j) (z i j)) := by
  have hr : ∀ i, ∃ L, i < r → binEls f (x.row i) (y.row i) c = .ok L ∧ ∀ get : Nat → M R, (∀ j, j < c → get j = .ok (f (u i j) (z i j))) →
      (⟨c, x.cat.restrict y.cat, L, get⟩ : Seq R).Presents c (fun j => f (u i j) (z i j)) := by
    intro i
    by_cases hi : i < r
    · obtain ⟨L, h⟩ := binEls_presents (hx.rows i hi) (hy.rows i hi) f (.inr hf); exact ⟨L, fun _ => h⟩
    · exact ⟨[], fun h => absurd h hi⟩
  have hc : ∀ j, ∃ L, j < c → binEls f (x.col j) (y.col j) r = .ok L ∧ ∀ get : Nat → M R, (∀ i, i < r → get i = .ok (f (u i j) (z i j))) →
      (⟨r, x.cat.restrict y.cat, L, get⟩ : Seq R).Presents r (fun i => f (u i j) (z i j)) := by
    intro j
    by_cases hj : j < c
    · obtain ⟨L, h⟩ := binEls_presents (hx.cols j hj) (hy.cols j hj) f (.inr hf); exact ⟨L, fun _ => h⟩
    · exact ⟨[], fun h => absurd h hj⟩
  choose row hrow using hr
  choose col hcol using hc
  have hat : ∀ i j, i < r → j < c → (do let a ← x.at_ i j; let b ← y.at_ i j; .ok (f a b) : M R) = .ok (f (u i j) (z i j)) := by
    intro i j hi hj
    have h1 : x.at_ i j = .ok (u i j) := (hx.rows i hi).at_ j hj
    have h2 : y.at_ i j = .ok (z i j) := (hy.rows i hi).at_ j hj
    rw [h1, h2]; rfl
  refine ⟨⟨r, c, x.cat.restrict y.cat, row, col, fun i j => do let a ← x.at_ i j; let b ← y.at_ i j; .ok (f a b)⟩, ⟨?_, ?_, rfl, fun i hi => (hrow i hi).1, fun j hj => (hcol j hj).1, rfl⟩, rfl, rfl, ?_, ?_⟩
  · simp only [same, hx.size1, hy.size1, check_True, bind_ok, Nat.min_self, pure_eq_ok]
  · simp only [same, hx.size2, hy.size2, check_True, bind_ok, Nat.min_self, pure_eq_ok]
  · exact fun i hi => (hrow i hi).2 _ fun j hj => hat i j hi hj
  · exact fun j hj => (hcol j hj).2 _ fun i hi => hat i j hi hj

/-- The value of a matrix expression tree. -/
def Expr.ME.value (env : MSeq R → Nat → Nat → R) : ME R → Nat → Nat → R
  | .leaf m => env m
  | .un F e => fun i j => F (e.value env i j)
  | .tr F e => fun i j => F (e.value env j i)
  | .bin f e1 e2 => fun i j => f (e1.value env i j) (e2.value env i j)

/-- Every leaf is a matrix, sizes agree, every functor maps zeros to zero. -/
def Expr.ME.Ok (env : MSeq R → Nat → Nat → R) : (r c : Nat) → ME R → Prop
  | r, c, .leaf m => m.Presents r c (env m)
  | r, c, .un F e => F 0 = 0 ∧ e.Ok env r c
  | r, c, .tr F e => F 0 = 0 ∧ e.Ok env c r
  | r, c, .bin f e1 e2 => f 0 0 = 0 ∧ e1.Ok env r c ∧ e2.Ok env r c

/-- **C48**.  Every nested combination of negation, conjugation, scaling, transposition, sums and element-wise products of matrices. -/
theorem C48_matrix_expression_tree (dbg : Bool) (r c : Nat) (env : MSeq R → Nat → Nat → R) (e : ME R) (h : e.Ok env r c) :
    ∃ m, e.Builds dbg m ∧ m.Presents r c (e.value env) := by
  induction e generalizing r c with
  | leaf m => exact ⟨m, .leaf m, h⟩
  | un F e ih =>
    obtain ⟨m, b, p⟩ := ih r c h.2
    exact ⟨_, .un b, C48_matrix_unary F p h.1⟩
  | tr F e ih =>
    obtain ⟨m, b, p⟩ := ih c r h.2
    exact ⟨_, .tr b, C48_matrix_trans F p h.1⟩
  | bin f e1 e2 ih1 ih2 =>
    obtain ⟨m1, b1, p1⟩ := ih1 r c h.2.1
    obtain ⟨m2, b2, p2⟩ := ih2 r c h.2.2
    obtain ⟨m, b3, p3⟩ := C48_matrix_binary dbg f p1 p2 h.1
    exact ⟨m, .bin b1 b2 b3, p3⟩

/-- **C48** for `outer_prod (v, w)`: element access gives `v i * w j`; rows and columns visit increasing indices with the right values and skip only zeros. -/
theorem C48_outer_partial [DecidableEq R] {p q : Nat} {v w : Nat → R} {a b : Seq R} (ha : a.Presents p v) (hb : b.Presents q w) :
    (outer a b).size1 = p ∧ (outer a b).size2 = q ∧ (∀ i j, i < p → j < q → (outer a b).at_ i j = .ok (v i * w j)) ∧
    (∀ i, i < p → (∀ e ∈ (outer a b).rowEls i, e.1 < q ∧ e.2 = v i * w e.1) ∧ (((outer a b).rowEls i).map (·.1)).Pairwise (· < ·) ∧
      ∀ j, j < q → j ∉ ((outer a b).rowEls i).map (·.1) → v i * w j = 0) ∧
    (∀ j, j < q → (∀ e ∈ (outer a b).colEls j, e.1 < p ∧ e.2 = v e.1 * w j) ∧ (((outer a b).colEls j).map (·.1)).Pairwise (· < ·) ∧
      ∀ i, i < p → i ∉ ((outer a b).colEls j).map (·.1) → v i * w j = 0) := by
  -- what `find (i)` delivers
  have hfind : ∀ {s : Seq R} {n : Nat} {u : Nat → R}, s.Presents n u → ∀ i, i < n →
      ((∃ x, s.els.find? (fun e => decide (i ≤ e.1)) = some (i, x) ∧ x = u i) ∨ (u i = 0 ∧ ∀ e, s.els.find? (fun e => decide (i ≤ e.1)) = some e → e.1 ≠ i)) := by
    intro s n u hs i hi
    cases hf : s.els.find? (fun e => decide (i ≤ e.1)) with
    | none =>
      right
      refine ⟨hs.skipped i hi fun hm => ?_, by simp⟩
      obtain ⟨e, he, rfl⟩ := List.mem_map.1 hm
      have := List.find?_eq_none.1 hf e he
      simp at this
    | some e =>
      have he := List.mem_of_find?_eq_some hf
      by_cases hei : e.1 = i
      · left
        refine ⟨e.2, by rw [← hei], by rw [(hs.vals e he).2, hei]⟩
      · right
        refine ⟨hs.skipped i hi fun hm => ?_, by rintro e' h; cases h; exact hei⟩
        obtain ⟨e', he', rfl⟩ := List.mem_map.1 hm
        obtain ⟨k, hk, rfl⟩ := List.mem_iff_getElem.1 he
        obtain ⟨k', hk', rfl⟩ := List.mem_iff_getElem.1 he'
        have hle := List.find?_some hf
        simp only [decide_eq_true_eq] at hle
        have hord : k' < k := by
          rcases Nat.lt_trichotomy k' k with h | h | h
          · exact h
          · subst h; exact absurd rfl hei
          · have := sorted_get hs.sorted (List.getElem?_eq_getElem hk) (List.getElem?_eq_getElem hk') h; omega
        obtain ⟨_, j, hj, hj1, hj2⟩ := List.find?_eq_some_iff_getElem.1 hf
        have : j = k := by
          rcases Nat.lt_trichotomy j k with h | h | h
          · have := sorted_get hs.sorted (List.getElem?_eq_getElem hj) (List.getElem?_eq_getElem hk) h; rw [hj1] at this; omega
          · exact h
          · have := sorted_get hs.sorted (List.getElem?_eq_getElem hk) (List.getElem?_eq_getElem hj) h; rw [hj1] at this; omega
        subst this
        have := hj2 k' hord
        simp at this
  refine ⟨ha.size, hb.size, fun i j hi hj => ?_, fun i hi => ?_, fun j hj => ?_⟩
  · show (do let x ← a.at_ i; let y ← b.at_ j; .ok (x * y) : M R) = _
    rw [ha.at_ i hi, hb.at_ j hj]; rfl
  · show (∀ e ∈ outerRow a b i, _) ∧ ((outerRow a b i).map (·.1)).Pairwise (· < ·) ∧ ∀ j, j < q → j ∉ (outerRow a b i).map (·.1) → _
    rcases hfind ha i hi with ⟨x, hx1, hx2⟩ | ⟨h0, hne⟩
    · by_cases hx0 : x = 0
      · simp [outerRow, hx1, hx0, ← hx2]
      · have he : outerRow a b i = b.els.map fun e => (e.1, x * e.2) := by simp [outerRow, hx1, hx0]
        rw [he]
        refine ⟨fun e hm => ?_, by simpa [Function.comp_def] using hb.sorted, fun j hj hm => ?_⟩
        · obtain ⟨e', he', rfl⟩ := List.mem_map.1 hm
          have := hb.vals e' he'
          exact ⟨this.1, by simp only [this.2, hx2]⟩
        · rw [hb.skipped j hj (by simpa [Function.comp_def] using hm), mul_zero]
    · have he : outerRow a b i = [] := by
        unfold outerRow
        split
        · rename_i e hf
          rw [if_pos (.inl (hne e hf))]
        · rfl
      rw [he]; simp [h0]
  · show (∀ e ∈ outerCol a b j, _) ∧ ((outerCol a b j).map (·.1)).Pairwise (· < ·) ∧ ∀ i, i < p → i ∉ (outerCol a b j).map (·.1) → _
    rcases hfind hb j hj with ⟨x, hx1, hx2⟩ | ⟨h0, hne⟩
    · by_cases hx0 : x = 0
      · simp [outerCol, hx1, hx0, ← hx2]
      · have he : outerCol a b j = a.els.map fun e => (e.1, e.2 * x) := by simp [outerCol, hx1, hx0]
        rw [he]
        refine ⟨fun e hm => ?_, by simpa [Function.comp_def] using ha.sorted, fun i hi hm => ?_⟩
        · obtain ⟨e', he', rfl⟩ := List.mem_map.1 hm
          have := ha.vals e' he'
          exact ⟨this.1, by simp only [this.2, hx2]⟩
        · rw [ha.skipped i hi (by simpa [Function.comp_def] using hm), zero_mul]
    · have he : outerCol a b j = [] := by
        unfold outerCol
        split
        · rename_i e hf
          rw [if_pos (.inl (hne e hf))]
        · rfl
      rw [he]; simp [h0]

/-- **C48** refuted for the iterators of `outer_prod` of two dense vectors: their category promises one element per column, but the row of a zero element
of `v` is empty. -/
theorem C48_outer_refuted : ¬ ∀ (p q : Nat) (v w : Nat → Int) (a b : Seq Int), a.Presents p v → b.Presents q w → (outer a b).Presents p q (fun i j => v i * w j) := by
  intro h
  obtain ⟨a, a1, a2⟩ := denseVec_operand true [(0 : Int)]
  have hcat : a.cat = .dense := a1.2.1
  have hels : a.els = [(0, 0)] := by
    have : denseVecEls true [(0 : Int)] = .ok [(0, 0)] := by rfl
    have h3 := a1.2.2.1
    rw [this] at h3; exact (Except.ok.inj h3).symm
  have := (h 1 1 _ _ a a a2 a2).rows 0 (by decide)
  have hd := this.dense (by show a.cat.restrict a.cat = .dense; rw [hcat]; rfl)
  have he : ((outer a a).row 0).els = [] := by
    show outerRow a a 0 = []
    simp [outerRow, hels]
  rw [he] at hd
  exact absurd hd (by decide)

/-- Non-vacuity: `- (v + 2 * w)` with `v` dense and `w` sparse. -/
example : ∃ (a b q : Seq Int) (v w : Nat → Int), a.Presents 3 v ∧ b.Presents 3 w ∧ b.cat = .sparse ∧
    (VE.un (fun x => -x) (.bin (· + ·) (.leaf a) (.un (2 * ·) (.leaf b)))).build true = .ok q ∧ q.els = [(0, -1), (1, -12), (2, -3)] := by
  obtain ⟨⟨sz, ct, el, at'⟩, ⟨a0, a1, a2, a3⟩, ap⟩ := denseVec_operand true [1, 2, (3 : Int)]
  have e2 : denseVecEls true [1, 2, (3 : Int)] = .ok [(0, 1), (1, 2), (2, 3)] := by rfl
  rw [e2] at a2
  have a2' := Except.ok.inj a2
  simp only at a0 a1 a2'
  subst a0 a1 a2'
  have hb : (⟨3, .sparse, [(1, 5)], fun i => .ok (if i = 1 then 5 else 0)⟩ : Seq Int).Presents 3 (fun i => if i = 1 then 5 else 0) :=
    ⟨rfl, fun _ _ => rfl, by decide, by decide, fun i hi hm => by
      simp only [List.map_cons, List.map_nil, List.mem_singleton] at hm; simp [hm], fun h => absurd rfl h, fun h => by cases h⟩
  exact ⟨_, _, _, _, _, ap, hb, rfl, rfl, rfl⟩

/-! ## C67: reverse iteration -/

/-- **C67** (partial): for two dense operands reverse iteration visits the elements backwards.  Missing: every other combination, see `C67_refuted`. -/
theorem C67_dense_partial (f : R → R → R) (ha : a.Presents n v) (hb : b.Presents n w) (hda : a.cat = .dense) (hdb : b.cat = .dense) :
    ∃ L, binEls f a b n = .ok L ∧ binRev f a b n = .ok L.reverse := by
  have hget : ∀ {c : Seq R} {u : Nat → R}, c.Presents n u → c.cat = .dense → c.els.length = n ∧ ∀ i, i < n → c.els[i]? = some (i, u i) := by
    intro c u hc hd
    have hm := hc.dense hd
    have hl : c.els.length = n := by have := congrArg List.length hm; simpa using this
    refine ⟨hl, fun i hi => ?_⟩
    have h1 : (c.els.map (·.1))[i]? = some i := by rw [hm, List.getElem?_range hi]
    rw [List.getElem?_map, Option.map_eq_some_iff] at h1
    obtain ⟨q, hq, hq1⟩ := h1
    rw [hq, ← hq1, ← (hc.vals q (List.mem_of_getElem? hq)).2]
  obtain ⟨hla, hga⟩ := hget ha hda
  obtain ⟨hlb, hgb⟩ := hget hb hdb
  have hi0 : (begin_ n a.els b.els).i = 0 ∧ begin_ n a.els b.els = ⟨0, 0, 0⟩ := by
    rcases Nat.eq_zero_or_pos n with h | h
    · subst h
      have h1 := List.eq_nil_of_length_eq_zero hla
      have h2 := List.eq_nil_of_length_eq_zero hlb
      simp [begin_, idxAt, h1, h2]
    · simp [begin_, idxAt, hga 0 h, hgb 0 h]
  have hcat : a.cat.restrict b.cat = .dense := by rw [hda, hdb]; rfl
  have hf : ∀ fuel i, n - i < fuel → i ≤ n → walk .dense f n a.els b.els fuel ⟨i, i, i⟩ = .ok ((List.range' i (n - i)).map fun k => (k, f (v k) (w k))) := by
    intro fuel
    induction fuel with
    | zero => intro i h; omega
    | succ k ih =>
      intro i hk hin
      by_cases he : i = n
      · simp [walk, he]
      · have hi : i < n := by omega
        simp only [walk, he, if_false, deref, hga i hi, hgb i hi, bind_ok, inc, ih (i + 1) (by omega) hi, pure_eq_ok]
        obtain ⟨m, hm⟩ : ∃ m, n - i = m + 1 := ⟨n - i - 1, by omega⟩
        rw [hm, List.range'_succ, List.map_cons]
        congr 5; omega
  have hb' : ∀ fuel i, i < fuel → i ≤ n → walkBack .dense f n a.els b.els 0 fuel ⟨i, i, i⟩ = .ok (((List.range i).map fun k => (k, f (v k) (w k))).reverse) := by
    intro fuel
    induction fuel with
    | zero => intro i h; omega
    | succ k ih =>
      intro i hk hin
      by_cases he : i = 0
      · simp [walkBack, he]
      · obtain ⟨j, rfl⟩ : ∃ j, i = j + 1 := ⟨i - 1, by omega⟩
        simp only [walkBack, he, if_false, dec, bind_ok, Nat.add_sub_cancel, deref, hga j (by omega), hgb j (by omega), ih j (by omega) (by omega), pure_eq_ok, List.range_succ,
          List.map_append, List.map_cons, List.map_nil, List.reverse_append, List.reverse_cons, List.reverse_nil, List.nil_append, List.singleton_append]
  refine ⟨(List.range' 0 (n - 0)).map fun k => (k, f (v k) (w k)), ?_, ?_⟩
  · unfold binEls
    rw [hcat, hi0.2]; exact hf (n + 1) 0 (by omega) (Nat.zero_le _)
  · unfold binRev
    rw [hcat, hi0.1]
    have : end_ n a.els b.els = ⟨n, n, n⟩ := by simp [end_, hla, hlb]
    rw [this, hb' (n + 1) n (by omega) (Nat.le_refl _), Nat.sub_zero, ← List.range_eq_range']

/-- **C67** refuted: reverse iteration over the sum of two sparse vectors never gets off `end ()`; over two packed ones it delivers zeros. -/
theorem C67_refuted : ¬ ∀ (n : Nat) (v w : Nat → Int) (a b : Seq Int), a.Presents n v → b.Presents n w →
    ∃ L, binEls (· + ·) a b n = .ok L ∧ binRev (· + ·) a b n = .ok L.reverse := by
  intro h
  have hs : (⟨1, .sparse, [(0, 5)], fun _ => .ok 5⟩ : Seq Int).Presents 1 (fun _ => 5) :=
    ⟨rfl, fun _ _ => rfl, by decide, by decide, fun i hi hm => by
      simp only [List.map_cons, List.map_nil, List.mem_singleton] at hm; omega, fun h => absurd rfl h, fun h => by cases h⟩
  obtain ⟨L, _, e⟩ := h 1 _ _ _ _ hs hs
  have : binRev (· + ·) (⟨1, .sparse, [(0, 5)], fun _ => .ok 5⟩ : Seq Int) ⟨1, .sparse, [(0, 5)], fun _ => .ok 5⟩ 1 = .error .diverge := by rfl
  rw [this] at e; cases e

/-- The loop never ends: whatever the bound on the number of rounds, reverse iteration over a sparse sum with a stored element does not reach `rend ()`. -/
theorem C67_sparse_never_ends (f : R → R → R) (n stop : Nat) (l1 l2 : List (Nat × R)) (hstop : stop ≠ n) (fuel : Nat) :
    walkBack .sparse f n l1 l2 stop fuel (end_ n l1 l2) = .error .diverge := by
  induction fuel with
  | zero => rfl
  | succ k ih =>
    have hd : dec .sparse n l1 l2 (end_ n l1 l2) = .ok (end_ n l1 l2) := by
      simp [dec, back, end_, idxAt]
    simp only [walkBack, show (end_ n l1 l2).i = n from rfl, if_neg (Ne.symm hstop), hd, bind_ok, deref, ih, bind_error]

/-- Over two packed vectors every element delivered by reverse iteration is `f 0 0`, whatever the vectors hold. -/
theorem C67_packed_zeros (f : R → R → R) (n stop : Nat) (l1 l2 : List (Nat × R)) : ∀ (fuel i : Nat) (L : List (Nat × R)),
    walkBack .packed f n l1 l2 stop fuel ⟨i, l1.length, l2.length⟩ = .ok L → ∀ q ∈ L, q.2 = f 0 0 := by
  intro fuel
  induction fuel with
  | zero => intro i L h; cases h
  | succ k ih =>
    intro i L h q hq
    by_cases hi : i = stop
    · simp only [walkBack, hi, if_true] at h; cases h; cases hq
    · have hd : dec .packed n l1 l2 ⟨i, l1.length, l2.length⟩ = .ok ⟨i - 1, l1.length, l2.length⟩ := by simp [dec, back]
      simp only [walkBack, hi, if_false, hd, bind_ok, deref] at h
      cases hw : walkBack .packed f n l1 l2 stop k ⟨i - 1, l1.length, l2.length⟩ with
      | error e => rw [hw] at h; cases h
      | ok L' =>
        rw [hw] at h
        simp only [bind_ok, pure_eq_ok, Except.ok.injEq] at h
        subst h
        rcases List.mem_cons.1 hq with rfl | hq
        · simp [valAt]
        · exact ih _ _ hw q hq

end Ublas
