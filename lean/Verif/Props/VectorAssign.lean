import Verif.Lemmas.VectorAssign
import Verif.Model.VectorTargets
import Verif.Props.Prod
/-! # C42 - C45: assignment and swap of vectors and vector views -/
namespace Ublas
open VAssign
variable {σ R : Type}

section general
variable [AddGroup R] [DecidableEq R] {T : VT σ R} {Rep : σ → Nat → (Nat → R) → List Nat → Prop}

theorem VT.Full.grows (hT : T.Lawful Rep) (hf : T.Full Rep) : T.Grows Rep := by
  intro s n w S h i hi t
  obtain ⟨s', e, h'⟩ := hf.ref s n w S h i hi t
  refine ⟨s', S, e, h', fun k => ⟨.inr, fun hk => hk.elim (fun hk => ?_) id⟩⟩
  rw [hf.all s n w S h, hk]; simpa using hi

/-- **C44** (and the positive half of **C43**), for every target and every expression that reads the target at most at the index being written.  Unless
the code starts with `clear ()` (see `C43_refuted`), afterwards element `i` is what the functor makes of the old element and the expression at `i`. -/
theorem assign_elementwise (dbg : Bool) (mode : ProdFn.Mode) (sc : StorageCat) (F : AssignF) (e : VExpr σ R) (n : Nat) (I : List Nat) (g : Nat → R → R)
    (s : σ) (w : Nat → R) (S : List Nat) (hT : T.Supports sc Rep) (hsc : sc ≠ .packed ∧ sc ≠ .packedProxy) (he : e.Reads Rep n I g) (h : Rep s n w S)
    (hclear : assignTraits sc F.computed e.cat ≠ .sparse) :
    ∃ s' w' S', assign dbg mode sc T F e s = .ok s' ∧ Rep s' n w' S' ∧ ∀ i, i < n → w' i = F.apply (w i) (g i (w i)) := by
  obtain ⟨hL, hT⟩ := hT
  have hfull : T.Full Rep → ∃ s', dense dbg mode T F e s = .ok s' ∧ Rep s' n (upd (List.range n) (fun i x => F.apply x (g i x)) w) S ∨ e.cat ≠ .dense := by
    intro hf
    by_cases hc : e.cat = .dense
    · obtain ⟨s', a, b⟩ := dense_ok hL hf he (he.dense hc) dbg mode F h
      exact ⟨s', .inl ⟨a, b⟩⟩
    · exact ⟨s, .inr hc⟩
  have hall : ∀ i, i < n → upd (List.range n) (fun i x => F.apply x (g i x)) w i = F.apply (w i) (g i (w i)) := fun i hi => by simp [upd, hi]
  have hF0 : F.apply (0 : R) 0 = 0 := by cases F <;> simp [AssignF.apply]
  have hsp : T.Grows Rep → ∃ s' w' S', sparseProxy dbg T F e s = .ok s' ∧ Rep s' n w' S' ∧ ∀ i, i < n → w' i = F.apply (w i) (g i (w i)) := by
    intro hg
    obtain ⟨s', S', e1, h1, z1, _⟩ := sparseProxy_ok hL he dbg F h (.inl hg)
    refine ⟨s', _, S', e1, h1, fun i hi => ?_⟩
    by_cases hm : i ∈ S'
    · simp [upd, hm]
    · have hw := hL.off s' n _ S' h1 i hi hm
      rw [hw]
      simp only [upd, hm, if_false] at hw
      rw [hw, z1 i hi hm, hF0]
  have hpk : T.Full Rep → T.cat = .dense → e.cat = .packed → ∃ s' w' S', packed dbg T F e s = .ok s' ∧ Rep s' n w' S' ∧ ∀ i, i < n → w' i = F.apply (w i) (g i (w i)) := by
    intro hf hc hce
    obtain ⟨s', e1, h1⟩ := packed_ok hL he (by rw [hc]; simp) (by rw [hce]; simp) dbg F h
    rw [hf.all s n w S h] at h1
    exact ⟨s', _, _, e1, h1, hall⟩
  have hdn : T.Full Rep → e.cat = .dense → ∃ s' w' S', dense dbg mode T F e s = .ok s' ∧ Rep s' n w' S' ∧ ∀ i, i < n → w' i = F.apply (w i) (g i (w i)) := by
    intro hf hc
    obtain ⟨s', e1, h1⟩ := dense_ok hL hf he (he.dense hc) dbg mode F h
    exact ⟨s', _, _, e1, h1, hall⟩
  unfold VAssign.assign
  cases sc with
  | packed => exact absurd rfl hsc.1
  | packedProxy => exact absurd rfl hsc.2
  | dense =>
    obtain ⟨hf, hi, hc⟩ := hT
    cases hce : e.cat with
    | dense => cases hF : F.computed <;> exact hdn hf hce
    | packed => cases hF : F.computed <;> exact hpk hf hc hce
    | sparse =>
      cases hF : F.computed with
      | false => rw [hF, hce] at hclear; exact absurd rfl hclear
      | true => exact hsp (hf.grows hL)
  | denseProxy =>
    obtain ⟨hf, hc⟩ := hT
    cases hce : e.cat with
    | dense => cases hF : F.computed <;> exact hdn hf hce
    | packed => cases hF : F.computed <;> exact hpk hf hc hce
    | sparse => cases hF : F.computed <;> exact hsp (hf.grows hL)
  | sparse =>
    cases hF : F.computed with
    | false => rw [hF] at hclear; cases hce : e.cat <;> rw [hce] at hclear <;> exact absurd rfl hclear
    | true => cases hce : e.cat <;> exact hsp hT.1
  | sparseProxy => cases hF : F.computed <;> cases hce : e.cat <;> exact hsp hT.1

/-- When the code starts with `clear ()`, the expression is evaluated against the cleared target. -/
theorem assign_after_clear (dbg : Bool) (mode : ProdFn.Mode) (sc : StorageCat) (F : AssignF) (e : VExpr σ R) (n : Nat) (I : List Nat) (g : Nat → R → R)
    (s : σ) (w : Nat → R) (S : List Nat) (hT : T.Supports sc Rep) (he : e.Reads Rep n I g) (h : Rep s n w S) (hsc : sc ≠ .packed)
    (hclear : assignTraits sc F.computed e.cat = .sparse) :
    ∃ s' w' S', assign dbg mode sc T F e s = .ok s' ∧ Rep s' n w' S' ∧ ∀ i, i < n → w' i = g i 0 := by
  obtain ⟨hL, hT⟩ := hT
  have hi : F.computed = false ∧ T.Inserts Rep := by
    cases sc <;> cases hF : F.computed <;> cases hc : e.cat <;> simp [hF, hc, assignTraits] at hclear hsc ⊢ <;> exact hT.2.1
  obtain ⟨s', S', e1, h1⟩ := sparse_ok hL hi.2 he dbg h
  refine ⟨s', _, S', ?_, h1, fun i hn => ?_⟩
  · unfold VAssign.assign
    rw [hclear]
    simp only [hi.1, Bool.false_eq_true, if_false, e1]
  · simp only [upd]
    split
    · rfl
    · rename_i hm
      exact (he.skipped i hn hm 0).symm

/-- **C44**.  Assigning an expression that does not read the target (`+=`, `-=` included) stores / adds / subtracts every element of it. -/
theorem C44_assign_every_element (dbg : Bool) (mode : ProdFn.Mode) (sc : StorageCat) (F : AssignF) (e : Seq R) (n : Nat) (c : Nat → R)
    (s : σ) (w : Nat → R) (S : List Nat) (hT : T.Supports sc Rep) (hsc : sc ≠ .packed ∧ sc ≠ .packedProxy) (he : (VExpr.const e : VExpr σ R).Reads Rep n (e.els.map (·.1)) (fun i _ => c i))
    (h : Rep s n w S) : ∃ s' w' S', assign dbg mode sc T F (VExpr.const e) s = .ok s' ∧ Rep s' n w' S' ∧ ∀ i, i < n → w' i = F.apply (w i) (c i) := by
  by_cases hc : assignTraits sc F.computed (VExpr.const e : VExpr σ R).cat = .sparse
  · obtain ⟨s', w', S', e1, h1, h2⟩ := assign_after_clear dbg mode sc F _ n _ _ s w S hT he h hsc.1 hc
    refine ⟨s', w', S', e1, h1, fun i hi => ?_⟩
    rw [h2 i hi]
    have hF : F = .assign := by
      cases F with
      | assign => rfl
      | plus => exfalso; revert hc; cases sc <;> cases (VExpr.const e : VExpr σ R).cat <;> simp [AssignF.computed, assignTraits]
      | minus => exfalso; revert hc; cases sc <;> cases (VExpr.const e : VExpr σ R).cat <;> simp [AssignF.computed, assignTraits]
    subst hF; rfl
  · exact assign_elementwise dbg mode sc F _ n _ _ s w S hT hsc he h hc

/-- **C44** (packed views).  Assigning to a packed view stores the expression at every index of the view's support and changes nothing else; a sparse
expression must be zero outside the support (otherwise `make_conformant` writes there and `bad_index` is raised). -/
theorem C44_packed_view (dbg : Bool) (mode : ProdFn.Mode) (F : AssignF) (e : VExpr σ R) (n : Nat) (I : List Nat) (g : Nat → R → R)
    (s : σ) (w : Nat → R) (S : List Nat) (hT : T.Supports .packedProxy Rep) (he : e.Reads Rep n I g) (h : Rep s n w S)
    (hout : e.cat = .sparse → ∀ i, i < n → i ∉ S → g i 0 = 0) :
    ∃ s' w', assign dbg mode .packedProxy T F e s = .ok s' ∧ Rep s' n w' S ∧ ∀ i ∈ S, w' i = F.apply (w i) (g i (w i)) := by
  obtain ⟨hL, hT⟩ := hT
  have hall : ∀ i ∈ S, upd S (fun i x => F.apply x (g i x)) w i = F.apply (w i) (g i (w i)) := fun i hi => by simp [upd, hi]
  unfold VAssign.assign
  cases hc : e.cat with
  | sparse =>
    obtain ⟨s', S', e1, h1, _, hS⟩ := sparseProxy_ok hL he dbg F h (.inr (hout hc))
    have := hS (hout hc)
    subst this
    cases hF : F.computed <;> exact ⟨s', _, e1, h1, hall⟩
  | dense =>
    obtain ⟨s', e1, h1⟩ := packed_ok hL he (by rw [hT]; simp) (by rw [hc]; simp) dbg F h
    cases hF : F.computed <;> exact ⟨s', _, e1, h1, hall⟩
  | packed =>
    obtain ⟨s', e1, h1⟩ := packed_ok hL he (by rw [hT]; simp) (by rw [hc]; simp) dbg F h
    cases hF : F.computed <;> exact ⟨s', _, e1, h1, hall⟩

end general

/-- An operand of the products is an expression that does not read the target. -/
theorem Seq.Presents.reads [Semiring R] {q : Seq R} {n : Nat} {c : Nat → R} (h : q.Presents n c) (Rep : σ → Nat → (Nat → R) → List Nat → Prop) :
    (VExpr.const q : VExpr σ R).Reads Rep n (q.els.map (·.1)) (fun i _ => c i) where
  size := h.size
  begin_ s w S _ := by simp [VExpr.const, Function.comp_def]
  deref s w S s0 w0 S0 _ _ x hx := by
    simp only [VExpr.const, List.mem_map] at hx
    obtain ⟨p, hp, rfl⟩ := hx
    simp only [(h.vals p hp).2]
  at_ s w S _ i hi := h.at_ i hi
  sorted := h.sorted
  lt i hi := by
    obtain ⟨p, hp, rfl⟩ := List.mem_map.1 hi
    exact (h.vals p hp).1
  skipped i hi hm _ := h.skipped i hi hm
  packed hc := by rw [List.length_map]; exact h.packed hc
  dense hc := h.dense hc

/-! ## Targets -/

/-- State of a view on an array that was `orig` before: the viewed elements are `w`, all others are those of `orig`. -/
def ViewRep (n : Nat) (addr : Nat → Nat) (orig : List R) (s : List R) (n' : Nat) (w : Nat → R) (S : List Nat) : Prop :=
  n' = n ∧ S = List.range n ∧ s.length = orig.length ∧ (∀ i, i < n → s[addr i]? = some (w i)) ∧ ∀ k : Nat, (∀ i, i < n → addr i ≠ k) → s[k]? = orig[k]?

section view
variable {n : Nat} {addr : Nat → Nat} {orig : List R}

theorem ViewRep.write (dbg : Bool) (hinj : ∀ i j, i < n → j < n → addr i = addr j → i = j) {s : List R} {n' : Nat} {w : Nat → R} {S : List Nat}
    (h : ViewRep n addr orig s n' w S) {i : Nat} (hi : i < n) (t : R) :
    ∃ s', wr dbg s (addr i) t = .ok s' ∧ ViewRep n addr orig s' n' (Function.update w i t) S := by
  obtain ⟨h1, h2, h3, h4, h5⟩ := h
  have hl : addr i < s.length := (List.getElem?_eq_some_iff.1 (h4 i hi)).1
  refine ⟨s.set (addr i) t, wr_ok hl, h1, h2, by simpa using h3, fun k hk => ?_, fun k hk => ?_⟩
  · by_cases e : k = i
    · subst e; simp [hl]
    · rw [Function.update_of_ne e, List.getElem?_set_ne (fun c => e (hinj k i hk hi c.symm))]
      exact h4 k hk
  · rw [List.getElem?_set_ne (hk i hi)]; exact h5 k hk

theorem view_supports [Zero R] (dbg : Bool) (n : Nat) (addr : Nat → Nat) (orig : List R) (hinj : ∀ i j, i < n → j < n → addr i = addr j → i = j) :
    (VT.view dbg n addr : VT (List R) R).Supports .dense (ViewRep n addr orig) ∧ (VT.view dbg n addr : VT (List R) R).Supports .denseProxy (ViewRep n addr orig) := by
  have hput : ∀ s n' w S, ViewRep n addr orig s n' w S → ∀ i, i < n → ∀ t : R, ∃ s', (do check dbg (i < n) .badIndex; wr dbg s (addr i) t) = .ok s' ∧
      ViewRep n addr orig s' n' (Function.update w i t) S := by
    intro s n' w S h i hi t
    rw [check_true hi, bind_ok]
    exact h.write dbg hinj hi t
  have hL : (VT.view dbg n addr : VT (List R) R).Lawful (ViewRep n addr orig) := {
    size := fun s n' w S h => h.1.symm
    its := fun s n' w S h => h.2.1.symm
    sorted := fun s n' w S h => by rw [h.2.1]; exact List.pairwise_lt_range
    lt := fun s n' w S h i hi => by rw [h.2.1, List.mem_range] at hi; rw [h.1]; exact hi
    off := fun s n' w S h i hi hm => by rw [h.2.1, List.mem_range] at hm; rw [h.1] at hi; exact absurd hi hm
    get := fun s n' w S h i hi => by
      rw [h.2.1, List.mem_range] at hi
      show (do check dbg (i < n) .badIndex; rd dbg s (addr i)) = _
      rw [check_true hi, bind_ok]
      exact rd_eq_ok.2 (h.2.2.2.1 i hi)
    put := fun s n' w S h i hi t => by
      rw [h.2.1, List.mem_range] at hi
      exact hput s n' w S h i hi t
    consec := fun s n' w S h _ => ⟨0, by rw [h.2.1, List.length_range, List.range_eq_range']⟩ }
  have hF : (VT.view dbg n addr : VT (List R) R).Full (ViewRep n addr orig) := {
    all := fun s n' w S h => by rw [h.2.1, h.1]
    ref := fun s n' w S h i hi t => hput s n' w S h i (h.1 ▸ hi) t }
  refine ⟨⟨hL, hF, ⟨?_, ?_⟩, rfl⟩, hL, hF, rfl⟩
  · intro s n' w S h
    have hz := loop_inv (f := fun i s => wr dbg s (addr i) (0 : R)) (n := n) (s := s) (fun k s => ViewRep n addr orig s n' (fun i => if i < k then 0 else w i) S)
      (by simpa using h) (fun k t hk ht => by
        obtain ⟨t', e, h'⟩ := ht.write dbg hinj hk 0
        refine ⟨t', e, ?_⟩
        convert h' using 1
        funext i
        by_cases hi : i = k
        · subst hi; simp
        · rw [Function.update_of_ne hi]
          by_cases hik : i < k
          · rw [if_pos (by omega), if_pos hik]
          · rw [if_neg (by omega), if_neg hik])
    obtain ⟨s', e, h'⟩ := hz
    refine ⟨s', S, e, ?_, .inr hF⟩
    obtain ⟨a, b, c, d, f⟩ := h'
    exact ⟨a, b, c, fun i hi => by rw [d i hi]; simp only [if_pos hi], f⟩
  · intro s n' w S h i hi _ t
    obtain ⟨s', e, h'⟩ := hput s n' w S h i (h.1 ▸ hi) t
    refine ⟨s', S, e, h', fun k => ⟨.inr, fun hk => hk.elim (fun hk => ?_) id⟩⟩
    rw [h.2.1, hk, List.mem_range, ← h.1]; exact hi

end view

/-- State of a compressed_vector: size, values (absent = zero) and the stored indices. -/
def CVecRep [Zero R] (IB : Nat) (v : CVec R) (n : Nat) (w : Nat → R) (S : List Nat) : Prop :=
  ∃ E s, CVec.Repr IB v E s ∧ s.size = n ∧ (w = fun i => (s.val i).getD 0) ∧ S = E.map (·.1)

theorem compressed_supports [Zero R] (dbg : Bool) (IB : Nat) (junk : CVec.Junk R) : (VT.compressed dbg IB junk : VT (CVec R) R).Supports .sparse (CVecRep IB) := by
  have hmem : ∀ {E : List (Nat × R)} {val : Nat → Option R}, Assoc.Rep E val → ∀ i, i ∈ E.map (·.1) ↔ val i ≠ none := by
    intro E val h i
    rw [List.mem_map]
    constructor
    · rintro ⟨p, hp, rfl⟩
      rw [(h.2 p.1 p.2).2 hp]; simp
    · intro hi
      obtain ⟨x, hx⟩ := Option.ne_none_iff_exists'.1 hi
      exact ⟨(i, x), (h.2 i x).1 hx, rfl⟩
  have hupd : ∀ (val : Nat → Option R) (i : Nat) (t : R), (fun k => ((Assoc.upd val i (some t)) k).getD 0) = Function.update (fun k => (val k).getD 0) i t := by
    intro val i t
    funext k
    by_cases hk : k = i
    · subst hk; simp [Assoc.upd]
    · simp [Assoc.upd, hk, Function.update_of_ne hk]
  have hcell : ∀ {v : CVec R} {E s}, CVec.Repr IB v E s → ∀ {m i : Nat} {x : R}, m < v.filled → E[m]? = some (i, x) → ∀ t : R,
      m < v.val.length ∧ CVecRep IB { v with val := v.val.set m t } s.size (Function.update (fun k => (s.val k).getD 0) i t) (E.map (·.1)) := by
    intro v E s h m i x hm he t
    have := h.fill
    have := h.valLen
    refine ⟨by omega, E.set m (i, t), _, h.setAt hm he t, rfl, (hupd _ _ _).symm, ?_⟩
    rw [List.map_set]
    have hm' : m < (E.map (·.1)).length := by
      rw [List.length_map]; exact (List.getElem?_eq_some_iff.1 he).1
    apply List.ext_getElem?
    intro k
    by_cases hk : k = m
    · subst hk
      rw [List.getElem?_set_self (by simpa using hm'), List.getElem?_map, he]; rfl
    · rw [List.getElem?_set_ne (Ne.symm hk)]
  refine ⟨⟨?_, ?_, ?_, ?_, ?_, ?_, ?_, ?_⟩, ?_, ⟨?_, ?_⟩, rfl⟩
  · rintro v n w S ⟨E, s, h, h1, h2, h3⟩
    rw [← h1]; exact h.size
  · rintro v n w S ⟨E, s, h, h1, h2, h3⟩
    show (v.idx.take v.filled).map (· - IB) = S
    rw [h.holds.2.1, h3, List.map_map]
    congr 1
    funext p; simp
  · rintro v n w S ⟨E, s, h, h1, h2, h3⟩
    rw [h3, List.pairwise_map]; exact h.rep.1
  · rintro v n w S ⟨E, s, h, h1, h2, h3⟩ i hi
    rw [h3, hmem h.rep] at hi
    by_contra hc
    exact hi (h.range i (by omega))
  · rintro v n w S ⟨E, s, h, h1, h2, h3⟩ i hi hm
    rw [h3, hmem h.rep, not_not] at hm
    rw [h2]; simp only [hm]; rfl
  · rintro v n w S ⟨E, s, h, h1, h2, h3⟩ i hi
    have hlt : i < s.size := by
      rw [h3, hmem h.rep] at hi
      by_contra hc
      exact hi (h.range i (by omega))
    rw [h2]
    exact h.get dbg 0 i hlt
  · rintro v n w S ⟨E, s, h, h1, h2, h3⟩ i hi t
    rw [h3, hmem h.rep] at hi
    rcases h.slot i with ⟨m, x, e1, e2, e3, e4, e5⟩ | ⟨_, e4⟩
    · obtain ⟨b1, b2⟩ := hcell h e2 e3 t
      refine ⟨{ v with val := v.val.set m t }, ?_, ?_⟩
      · show (do match ← v.slot IB i with | none => .error .ub | some n => do let val ← wr dbg v.val n t; .ok { v with val := val }) = _
        rw [e1, bind_ok]
        simp only [wr_ok b1, bind_ok]
      · rw [h2, h3, ← h1]; exact b2
    · exact absurd e4 hi
  · intro v n w S _ hc; exact absurd rfl hc
  · rintro v n w S ⟨E, s, h, h1, h2, h3⟩ i hi t
    show ∃ s' S', v.modify dbg IB 0 junk i (fun _ => t) = .ok s' ∧ _
    unfold CVec.modify
    rw [check_true (by rw [h.size, h1]; exact hi), bind_ok]
    rcases h.slot i with ⟨m, x, e1, e2, e3, e4, e5⟩ | ⟨e1, e4⟩
    · obtain ⟨b1, b2⟩ := hcell h e2 e3 t
      refine ⟨{ v with val := v.val.set m t }, S, ?_, ?_, ?_⟩
      · rw [e1, bind_ok]
        simp only [bind_ok, rd_ok b1, wr_ok b1]
      · rw [h2, h3, ← h1]; exact b2
      · intro k
        constructor
        · exact .inr
        · rintro (rfl | hk)
          · rw [h3, hmem h.rep, e4]; simp
          · exact hk
    · obtain ⟨v', m, E', f1, f2, f3, f4⟩ := h.insert dbg 0 junk i 0 (by omega) e4
      obtain ⟨b1, b2⟩ := hcell f2 f3 f4 t
      refine ⟨{ v' with val := v'.val.set m t }, E'.map (·.1), ?_, ?_, ?_⟩
      · rw [e1, bind_ok]
        simp only [f1, bind_ok, rd_ok b1, wr_ok b1]
      · have b3 : s.size = n := h1
        simp only [b3] at b2
        rw [hupd, Function.update_idem] at b2
        rw [h2]; exact b2
      · intro k
        rw [hmem f2.rep, h3, hmem h.rep]
        simp only [Assoc.upd]
        by_cases hk : k = i <;> simp [hk]
  · rintro v n w S ⟨E, s, h, h1, h2, h3⟩
    refine ⟨{ v with filled := 0 }, [], ?_, ⟨[], _, h.empty, h1, by simp, rfl⟩, .inl rfl⟩
    show v.clear dbg IB = _
    simp only [CVec.clear, h.empty.invariants dbg, bind_ok]
  · rintro v n w S ⟨E, s, h, h1, h2, h3⟩ i hi hne t
    have hnone : s.val i = none := by
      rcases hne with hne | hne
      · rw [h3, hmem h.rep, not_not] at hne; exact hne
      · exfalso
        have hfresh := CVec.repr_fresh IB 1 1 [junk.1 0] [t] rfl rfl (by omega) (by omega)
        have := hne.all _ 1 _ _ ⟨_, _, hfresh, rfl, rfl, rfl⟩
        simp at this
    obtain ⟨v', m, E', f1, f2, f3, f4⟩ := h.insert dbg 0 junk i t (by omega) hnone
    refine ⟨v', E'.map (·.1), ?_, ⟨E', _, f2, h1, ?_, rfl⟩, ?_⟩
    · show (do let r ← v.insertElement dbg IB 0 junk i t; .ok r.1) = _
      rw [f1]; rfl
    · rw [h2]; exact (hupd _ _ _).symm
    · intro k
      rw [hmem f2.rep, h3, hmem h.rep]
      simp only [Assoc.upd]
      by_cases hk : k = i <;> simp [hk]

end Ublas
