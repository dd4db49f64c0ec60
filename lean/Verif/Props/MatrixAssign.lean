import Verif.Lemmas.MatrixAssign
import Verif.Model.MatrixTargets
import Verif.Props.Prod
import Verif.Props.TriRow
/-! # C68: assignment of a matrix expression to a matrix -/
namespace Ublas
open MAssign
open VAssign (upd)
variable {σ R : Type}

section general
variable [AddGroup R] [DecidableEq R] {T : MT σ R} {Rep : MRep σ R}

theorem MT.Full.grows (hT : T.Lawful Rep) (hf : T.Full Rep) : T.Grows Rep := by
  intro s r c w Ls S h k l hk hl t
  obtain ⟨s', e, h'⟩ := hf.ref s r c w Ls S h k l hk hl t
  refine ⟨s', Ls, S, e, h', fun i j hi hj => ⟨.inr, fun hk => hk.elim (fun hk => ?_) id⟩⟩
  obtain ⟨rfl, rfl⟩ := hk
  have ha := hf.all s r c w Ls S h
  have hm : i ∈ Ls := by rw [ha.1 (by omega)]; simpa using hi
  exact ⟨hm, by rw [ha.2 i hm]; simpa using hj⟩

/-- **C68**.  For every dense or sparse target (container or view), every functor (`=`, `+=`, `-=`) and every right-hand side that does not read the target:
afterwards element (k, l) is what the functor makes of the old element and the expression's, for every position.  `k`, `l` are the major and minor index of
the target's orientation. -/
theorem C68_matrix_assign (dbg : Bool) (mode : ProdFn.Mode) (sc : StorageCat) (F : AssignF) (e : MExp R) (r c : Nat) (a : Nat → Nat → R)
    (s : σ) (w : Nat → Nat → R) (Ls : List Nat) (S : Nat → List Nat) (hT : T.Supports sc Rep) (hsc : sc ≠ .packed ∧ sc ≠ .packedProxy)
    (he : e.Presents r c a) (h : Rep s r c w Ls S) :
    ∃ s' w' Ls' S', assign dbg mode sc T F e s = .ok s' ∧ Rep s' r c w' Ls' S' ∧ ∀ k l, k < r → l < c → w' k l = F.apply (w k l) (a k l) := by
  obtain ⟨hL, hT⟩ := hT
  have hF0 : F.apply (0 : R) 0 = 0 := by cases F <;> simp [AssignF.apply]
  have hcell : ∀ (Ls' : List Nat) (S' : Nat → List Nat) (k l : Nat), upd Ls' (hG F S' a) w k l = if k ∈ Ls' ∧ l ∈ S' k then F.apply (w k l) (a k l) else w k l := by
    intro Ls' S' k l
    simp only [upd, hG]
    by_cases h1 : k ∈ Ls'
    · by_cases h2 : l ∈ S' k <;> simp [upd, h1, h2]
    · simp [h1]
  have hsp : T.Grows Rep → ∃ s' w' Ls' S', sparseProxy dbg T F e s = .ok s' ∧ Rep s' r c w' Ls' S' ∧ ∀ k l, k < r → l < c → w' k l = F.apply (w k l) (a k l) := by
    intro hg
    obtain ⟨s', Ls', S', e1, h1, z1, _⟩ := sparseProxy_ok hL he dbg F h (.inl hg)
    refine ⟨s', _, Ls', S', e1, h1, fun k l hk hl => ?_⟩
    rw [hcell]
    by_cases hm : k ∈ Ls' ∧ l ∈ S' k
    · rw [if_pos hm]
    · have hw := hL.off s' r c _ Ls' S' h1 k l hk hl hm
      rw [hcell, if_neg hm] at hw
      rw [if_neg hm, hw, z1 k l hk hl hm, hF0]
  have hpk : T.Full Rep → T.cat = .dense → e.cat = .packed → ∃ s' w' Ls' S', packed dbg T F e s = .ok s' ∧ Rep s' r c w' Ls' S' ∧
      ∀ k l, k < r → l < c → w' k l = F.apply (w k l) (a k l) := by
    intro hf hc hce
    obtain ⟨s', e1, h1⟩ := packed_ok hL he (by rw [hc]; simp) (by rw [hce]; simp) dbg F h
    refine ⟨s', _, Ls, S, e1, h1, fun k l hk hl => ?_⟩
    have ha := hf.all s r c w Ls S h
    have hm : k ∈ Ls := by rw [ha.1 (by omega)]; simpa using hk
    rw [hcell, if_pos ⟨hm, by rw [ha.2 k hm]; simpa using hl⟩]
  have hdn : T.Full Rep → e.cat = .dense → ∃ s' w' Ls' S', dense dbg mode T F e s = .ok s' ∧ Rep s' r c w' Ls' S' ∧
      ∀ k l, k < r → l < c → w' k l = F.apply (w k l) (a k l) := by
    intro hf hc
    obtain ⟨s', e1, h1⟩ := dense_ok hL hf he hc dbg mode F h
    exact ⟨s', _, _, _, e1, h1, fun k l hk hl => by simp only [full, if_pos (And.intro hk hl)]⟩
  have hcl : T.Inserts Rep → F.computed = false → ∃ s' w' Ls' S', sparse dbg T e s = .ok s' ∧ Rep s' r c w' Ls' S' ∧
      ∀ k l, k < r → l < c → w' k l = F.apply (w k l) (a k l) := by
    intro hi hF
    obtain ⟨s', w', Ls', S', e1, h1, h2⟩ := sparse_ok hL hi he dbg h
    refine ⟨s', w', Ls', S', e1, h1, fun k l hk hl => ?_⟩
    rw [h2 k l hk hl]
    cases F <;> first | rfl | cases hF
  unfold MAssign.assign
  cases sc with
  | packed => exact absurd rfl hsc.1
  | packedProxy => exact absurd rfl hsc.2
  | dense =>
    obtain ⟨hf, hi, hc⟩ := hT
    cases hce : e.cat with
    | dense => cases hF : F.computed <;> exact hdn hf hce
    | packed => cases hF : F.computed <;> exact hpk hf hc hce
    | sparse =>
      cases hF : F.computed with
      | false => exact hcl hi hF
      | true => exact hsp (hf.grows hL)
  | denseProxy =>
    obtain ⟨hf, hc⟩ := hT
    cases hce : e.cat with
    | dense => cases hF : F.computed <;> exact hdn hf hce
    | packed => cases hF : F.computed <;> exact hpk hf hc hce
    | sparse => cases hF : F.computed <;> exact hsp (hf.grows hL)
  | sparse =>
    cases hF : F.computed with
    | false => cases hce : e.cat <;> exact hcl hT.2.1 hF
    | true => cases hce : e.cat <;> exact hsp hT.1
  | sparseProxy => cases hF : F.computed <;> cases hce : e.cat <;> exact hsp hT.1

/-- **C68** (packed targets).  Assigning to a packed matrix or view stores the expression at every position the target's iterators visit and changes no other one. -/
theorem C68_packed_target (dbg : Bool) (mode : ProdFn.Mode) (sc : StorageCat) (F : AssignF) (e : MExp R) (r c : Nat) (a : Nat → Nat → R)
    (s : σ) (w : Nat → Nat → R) (Ls : List Nat) (S : Nat → List Nat) (hT : T.Supports sc Rep) (hsc : sc = .packed ∨ sc = .packedProxy)
    (he : e.Presents r c a) (h : Rep s r c w Ls S) (hcl : sc = .packed → e.cat = .sparse → F.computed = true)
    (hout : e.cat = .sparse → ∀ k l, k < r → l < c → ¬ (k ∈ Ls ∧ l ∈ S k) → a k l = 0) :
    ∃ s' w', assign dbg mode sc T F e s = .ok s' ∧ Rep s' r c w' Ls S ∧ ∀ k l, w' k l = if k ∈ Ls ∧ l ∈ S k then F.apply (w k l) (a k l) else w k l := by
  obtain ⟨hL, hT⟩ := hT
  have hc : T.cat = .packed := by rcases hsc with rfl | rfl <;> exact hT
  have hcell : ∀ (Ls' : List Nat) (S' : Nat → List Nat) (k l : Nat), upd Ls' (hG F S' a) w k l = if k ∈ Ls' ∧ l ∈ S' k then F.apply (w k l) (a k l) else w k l := by
    intro Ls' S' k l
    simp only [upd, hG]
    by_cases h1 : k ∈ Ls'
    · by_cases h2 : l ∈ S' k <;> simp [upd, h1, h2]
    · simp [h1]
  have hpk : e.cat ≠ .sparse → ∃ s' w', packed dbg T F e s = .ok s' ∧ Rep s' r c w' Ls S ∧
      ∀ k l, w' k l = if k ∈ Ls ∧ l ∈ S k then F.apply (w k l) (a k l) else w k l := by
    intro hce
    obtain ⟨s', e1, h1⟩ := packed_ok hL he (by rw [hc]; simp) hce dbg F h
    exact ⟨s', _, e1, h1, hcell Ls S⟩
  have hsp : e.cat = .sparse → ∃ s' w', sparseProxy dbg T F e s = .ok s' ∧ Rep s' r c w' Ls S ∧
      ∀ k l, w' k l = if k ∈ Ls ∧ l ∈ S k then F.apply (w k l) (a k l) else w k l := by
    intro hce
    obtain ⟨s', Ls', S', e1, h1, z1, z2⟩ := sparseProxy_ok hL he dbg F h (.inr (hout hce))
    obtain ⟨rfl, rfl⟩ := z2 (hout hce)
    exact ⟨s', _, e1, h1, hcell _ _⟩
  unfold MAssign.assign
  rcases hsc with rfl | rfl <;> cases hce : e.cat <;> cases hF : F.computed
  all_goals first
    | exact hpk (by rw [hce]; simp)
    | exact hsp hce
    | (have := hcl rfl hce; rw [hF] at this; cases this)

end general

/-! ## Right-hand sides -/

/-- A row-wise or column-wise family of operands whose outer iterators skip only lines without elements is an expression in the sense of C68. -/
theorem MExp.presents_of {e : MExp R} [Semiring R] {r c : Nat} {a : Nat → Nat → R} {ls : List Nat} {els : Nat → List (Nat × R)}
    (h0 : e.sizeM = r ∧ e.sizem = c) (h1 : e.lines = ls.map fun i => (i, els i))
    (hline : ∀ i, i < r → (⟨c, e.cat, els i, e.at_ i⟩ : Seq R).Presents c (a i))
    (hsort : ls.Pairwise (· < ·)) (hlt : ∀ i ∈ ls, i < r) (hskip : ∀ i, i < r → i ∉ ls → ∀ j, j < c → a i j = 0)
    (hpk : e.cat ≠ .sparse → ∃ off, ls = List.range' off ls.length) (hd : e.cat = .dense → c ≠ 0 → ls = List.range r) : e.Presents r c a where
  sizes := h0
  at_ k l hk hl := (hline k hk).at_ l hl
  sorted := by rw [h1, List.map_map]; simpa [Function.comp_def] using hsort
  lt q hq := by
    rw [h1] at hq
    obtain ⟨i, hi, rfl⟩ := List.mem_map.1 hq
    exact hlt i hi
  inner q hq := by
    rw [h1] at hq
    obtain ⟨i, hi, rfl⟩ := List.mem_map.1 hq
    exact ⟨(hline i (hlt i hi)).sorted, fun p hp => (hline i (hlt i hi)).vals p hp⟩
  skipped k l hk hl hn := by
    by_cases hm : k ∈ ls
    · exact (hline k hk).skipped l hl (hn (k, els k) (by rw [h1]; exact List.mem_map.2 ⟨k, hm, rfl⟩) rfl)
    · exact hskip k hk hm l hl
  packed hc := by
    have hmm : e.lines.map (·.1) = ls := by rw [h1, List.map_map]; simp [Function.comp_def]
    obtain ⟨off, ho⟩ := hpk hc
    refine ⟨⟨off, by rw [hmm, h1, List.length_map]; exact ho⟩, fun q hq => ?_⟩
    rw [h1] at hq
    obtain ⟨i, hi, rfl⟩ := List.mem_map.1 hq
    exact (hline i (hlt i hi)).packed hc
  dense hc h0 := by
    have hmm : e.lines.map (·.1) = ls := by rw [h1, List.map_map]; simp [Function.comp_def]
    refine ⟨by rw [hmm]; exact hd hc h0, fun q hq => ?_⟩
    rw [h1] at hq
    obtain ⟨i, hi, rfl⟩ := List.mem_map.1 hq
    exact (hline i (hlt i hi)).dense hc

/-- Any operand of the products, iterated by rows. -/
theorem MSeq.Presents.byRows [Semiring R] {A : MSeq R} {r c : Nat} {a : Nat → Nat → R} (h : A.Presents r c a) {ls : List Nat}
    (hsort : ls.Pairwise (· < ·)) (hlt : ∀ i ∈ ls, i < r) (hskip : ∀ i, i < r → i ∉ ls → ∀ j, j < c → a i j = 0)
    (hpk : A.cat ≠ .sparse → ∃ off, ls = List.range' off ls.length) (hd : A.cat = .dense → c ≠ 0 → ls = List.range r) : (MExp.byRows A ls).Presents r c a :=
  MExp.presents_of ⟨h.size1, h.size2⟩ rfl (fun i hi => by
    have := h.rows i hi
    have hs : A.size2 = c := h.size2
    simp only [MSeq.row, hs] at this
    exact this) hsort hlt hskip hpk hd

/-- Any operand of the products, iterated by columns. -/
theorem MSeq.Presents.byCols [Semiring R] {A : MSeq R} {r c : Nat} {a : Nat → Nat → R} (h : A.Presents r c a) {ls : List Nat}
    (hsort : ls.Pairwise (· < ·)) (hlt : ∀ i ∈ ls, i < c) (hskip : ∀ j, j < c → j ∉ ls → ∀ i, i < r → a i j = 0)
    (hpk : A.cat ≠ .sparse → ∃ off, ls = List.range' off ls.length) (hd : A.cat = .dense → r ≠ 0 → ls = List.range c) : (MExp.byCols A ls).Presents c r (fun j i => a i j) :=
  MExp.presents_of ⟨h.size2, h.size1⟩ rfl (fun i hi => by
    have := h.cols i hi
    have hs : A.size1 = r := h.size1
    simp only [MSeq.col, hs] at this
    exact this) hsort hlt hskip hpk hd

/-! ## Targets -/

/-- State of a dense matrix or view on an array that was `orig` before. -/
def MViewRep (r c : Nat) (addr : Nat → Nat → Nat) (orig : List R) (s : List R) (r' c' : Nat) (w : Nat → Nat → R) (Ls : List Nat) (S : Nat → List Nat) : Prop :=
  r' = r ∧ c' = c ∧ (Ls = if c = 0 then [] else List.range r) ∧ (S = fun _ => List.range c) ∧ s.length = orig.length ∧
  (∀ k l, k < r → l < c → s[addr k l]? = some (w k l)) ∧ ∀ p : Nat, (∀ k l, k < r → l < c → addr k l ≠ p) → s[p]? = orig[p]?

theorem MViewRep.write {r c : Nat} {addr : Nat → Nat → Nat} {orig : List R} (dbg : Bool)
    (hinj : ∀ k l i j, k < r → l < c → i < r → j < c → addr k l = addr i j → k = i ∧ l = j) {s : List R} {r' c' : Nat} {w : Nat → Nat → R} {Ls : List Nat}
    {S : Nat → List Nat} (h : MViewRep r c addr orig s r' c' w Ls S) {k l : Nat} (hk : k < r) (hl : l < c) (t : R) :
    ∃ s', wr dbg s (addr k l) t = .ok s' ∧ MViewRep r c addr orig s' r' c' (update2 w k l t) Ls S := by
  obtain ⟨h1, h2, h3, h4, h5, h6, h7⟩ := h
  have hlen : addr k l < s.length := (List.getElem?_eq_some_iff.1 (h6 k l hk hl)).1
  refine ⟨s.set (addr k l) t, wr_ok hlen, h1, h2, h3, h4, by simpa using h5, fun i j hi hj => ?_, fun p hp => ?_⟩
  · by_cases e : i = k ∧ j = l
    · obtain ⟨rfl, rfl⟩ := e
      simp [update2, hlen]
    · simp only [update2, if_neg e]
      rw [List.getElem?_set_ne (fun c => e ?_)]
      · exact h6 i j hi hj
      · have := hinj k l i j hk hl hi hj c
        exact ⟨this.1.symm, this.2.symm⟩
  · rw [List.getElem?_set_ne (hp k l hk hl)]; exact h7 p hp

/-- A dense matrix and every view on an array with distinct addresses is a lawful target. -/
theorem mview_supports [Zero R] (dbg : Bool) (r c : Nat) (addr : Nat → Nat → Nat) (orig : List R)
    (hinj : ∀ k l i j, k < r → l < c → i < r → j < c → addr k l = addr i j → k = i ∧ l = j) :
    (MT.view dbg r c addr : MT (List R) R).Supports .dense (MViewRep r c addr orig) ∧ (MT.view dbg r c addr : MT (List R) R).Supports .denseProxy (MViewRep r c addr orig) := by
  have hput : ∀ s r' c' w Ls S, MViewRep r c addr orig s r' c' w Ls S → ∀ k l, k < r → l < c → ∀ t : R,
      ∃ s', (do check dbg (k < r) .badIndex; check dbg (l < c) .badIndex; wr dbg s (addr k l) t) = .ok s' ∧ MViewRep r c addr orig s' r' c' (update2 w k l t) Ls S := by
    intro s r' c' w Ls S h k l hk hl t
    rw [check_true hk, bind_ok, check_true hl, bind_ok]
    exact h.write dbg hinj hk hl t
  have hvis : ∀ s r' c' w Ls S, MViewRep r c addr orig s r' c' w Ls S → ∀ k ∈ Ls, ∀ l ∈ S k, k < r ∧ l < c := by
    intro s r' c' w Ls S h k hk l hl
    obtain ⟨h1, h2, h3, h4, _⟩ := h
    rw [h4, List.mem_range] at hl
    rw [h3, if_neg (by omega), List.mem_range] at hk
    exact ⟨hk, hl⟩
  have hL : (MT.view dbg r c addr : MT (List R) R).Lawful (MViewRep r c addr orig) := {
    sizes := fun s r' c' w Ls S h => ⟨h.1.symm, h.2.1.symm⟩
    lines := fun s r' c' w Ls S h => by
      refine ⟨h.2.2.1.symm, ?_, fun k hk => ?_⟩
      · rw [h.2.2.1]; split
        · exact List.Pairwise.nil
        · exact List.pairwise_lt_range
      · rw [h.2.2.1] at hk; rw [h.1]
        split at hk
        · cases hk
        · simpa using hk
    its := fun s r' c' w Ls S h k _ => ⟨by rw [h.2.2.2.1]; rfl, by rw [h.2.2.2.1]; exact List.pairwise_lt_range, fun l hl => by
      rw [h.2.2.2.1, List.mem_range] at hl; rw [h.2.1]; exact hl⟩
    off := fun s r' c' w Ls S h k l hk hl hn => by
      rw [h.1] at hk; rw [h.2.1] at hl
      exact absurd ⟨by rw [h.2.2.1, if_neg (by omega)]; simpa using hk, by rw [h.2.2.2.1]; simpa using hl⟩ hn
    get := fun s r' c' w Ls S h k hk l hl => by
      obtain ⟨a, b⟩ := hvis s r' c' w Ls S h k hk l hl
      show (do check dbg (k < r) .badIndex; check dbg (l < c) .badIndex; rd dbg s (addr k l)) = _
      rw [check_true a, bind_ok, check_true b, bind_ok]
      exact rd_eq_ok.2 (h.2.2.2.2.2.1 k l a b)
    put := fun s r' c' w Ls S h k hk l hl t => by
      obtain ⟨a, b⟩ := hvis s r' c' w Ls S h k hk l hl
      exact hput s r' c' w Ls S h k l a b t
    consec := fun s r' c' w Ls S h _ => by
      refine ⟨⟨0, ?_⟩, fun k _ => ⟨0, by rw [h.2.2.2.1, List.length_range, List.range_eq_range']⟩⟩
      rw [h.2.2.1]
      split
      · rfl
      · rw [List.length_range, List.range_eq_range'] }
  have hF : (MT.view dbg r c addr : MT (List R) R).Full (MViewRep r c addr orig) := {
    all := fun s r' c' w Ls S h => ⟨fun hc => by rw [h.2.2.1, if_neg (by rw [← h.2.1]; exact hc), h.1], fun k _ => by rw [h.2.2.2.1, h.2.1]⟩
    ref := fun s r' c' w Ls S h k l hk hl t => hput s r' c' w Ls S h k l (h.1 ▸ hk) (h.2.1 ▸ hl) t }
  refine ⟨⟨hL, hF, ⟨?_, ?_⟩, rfl⟩, hL, hF, rfl⟩
  · intro s r' c' w Ls S h
    have hin : ∀ k, k < r → ∀ s w, MViewRep r c addr orig s r' c' w Ls S → ∃ s', loop (fun l s => wr dbg s (addr k l) (0 : R)) c s = .ok s' ∧
        MViewRep r c addr orig s' r' c' (fun i j => if i = k ∧ j < c then 0 else w i j) Ls S := by
      intro k hk s w h
      obtain ⟨s', e, h'⟩ := loop_inv (f := fun l s => wr dbg s (addr k l) (0 : R)) (n := c) (s := s)
        (fun l s => MViewRep r c addr orig s r' c' (fun i j => if i = k ∧ j < l then 0 else w i j) Ls S) (by simpa using h) (fun l t hl ht => by
          obtain ⟨t', e, h'⟩ := ht.write dbg hinj hk hl 0
          refine ⟨t', e, ?_⟩
          convert h' using 1
          funext i j
          simp only [update2]
          by_cases hi : i = k <;> by_cases hj : j = l <;> by_cases hjl : j < l <;> simp [hi, hj, hjl] <;> (try omega))
      exact ⟨s', e, h'⟩
    obtain ⟨s', e, h'⟩ := loop_inv (f := fun k s => loop (fun l s => wr dbg s (addr k l) (0 : R)) c s) (n := r) (s := s)
      (fun k s => MViewRep r c addr orig s r' c' (fun i j => if i < k ∧ j < c then 0 else w i j) Ls S) (by simpa using h) (fun k t hk ht => by
        obtain ⟨t', e, h'⟩ := hin k hk t _ ht
        refine ⟨t', e, ?_⟩
        convert h' using 1
        funext i j
        by_cases hi : i = k <;> by_cases hik : i < k <;> by_cases hj : j < c <;> simp [hi, hik, hj] <;> (try omega))
    refine ⟨s', Ls, S, e, ?_, .inr hF⟩
    obtain ⟨a1, a2, a3, a4, a5, a6, a7⟩ := h'
    exact ⟨a1, a2, a3, a4, a5, fun k l hk hl => by rw [a6 k l hk hl]; simp [hk, hl], a7⟩
  · intro s r' c' w Ls S h k l hk hl _ t
    rw [h.1] at hk; rw [h.2.1] at hl
    obtain ⟨s', e, h'⟩ := hput s r' c' w Ls S h k l hk hl t
    refine ⟨s', Ls, S, e, h', fun i j hi hj => ⟨.inr, fun hx => hx.elim (fun hx => ?_) id⟩⟩
    obtain ⟨rfl, rfl⟩ := hx
    exact ⟨by rw [h.2.2.1, if_neg (by omega)]; simpa using hk, by rw [h.2.2.2.1]; simpa using hl⟩

/-! ### compressed_matrix -/

namespace CMat
open SparseSpec

/-- The minor indices found in major line `k` are exactly those of the stored elements, increasing. -/
theorem Inv.lineIdx [Zero R] {o : Orient} {IB : Nat} {v : CMat R} {s : CMatS R} (h : CMat.Inv o IB v s) (k : Nat) :
    (∀ l, l ∈ v.lineIdx IB k ↔ s.val (o.indexM k l, o.indexm k l) ≠ none) ∧ (v.lineIdx IB k).Pairwise (· < ·) := by
  obtain ⟨_, _, _, _, _, off, o1, o2, o3, o4, o5, o6, o7, o8, o9, o10, o11, o12, o13⟩ := h.observes false o IB 0
  have hMM : ∀ l, o.indexM (o.indexM k l) (o.indexm k l) = k ∧ o.indexm (o.indexM k l) (o.indexm k l) = l := by intro l; cases o <;> exact ⟨rfl, rfl⟩
  unfold CMat.lineIdx
  by_cases hk : k + 1 < v.filled1
  · rw [if_pos hk]
    have hko : k < s.opened := by omega
    have e1 : v.idx1.getD k 0 - IB = off k := by rw [List.getD_eq_getElem?_getD, o10 k (by omega)]; simp
    have e2 : v.idx1.getD (k + 1) 0 - IB = off (k + 1) := by rw [List.getD_eq_getElem?_getD, o10 (k + 1) (by omega)]; simp
    rw [e1, e2]
    have hle : off (k + 1) ≤ v.idx2.length := by rw [o8]; have := o3 (k + 1) s.opened (by omega); omega
    have hget : ∀ (n x : Nat), ((v.idx2.take (off (k + 1))).drop (off k))[n]? = some x ↔ off k + n < off (k + 1) ∧ v.idx2[off k + n]? = some x := by
      intro n x
      rw [List.getElem?_drop, List.getElem?_take]
      by_cases hh : off k + n < off (k + 1) <;> simp [hh]
    constructor
    · intro l
      rw [List.mem_map]
      constructor
      · rintro ⟨x, hx, rfl⟩
        obtain ⟨n, hn⟩ := List.mem_iff_getElem?.1 hx
        obtain ⟨hn1, hn2⟩ := (hget n x).1 hn
        obtain ⟨m, y, q1, q2, q3⟩ := o11 k (off k + n) hko (by omega) hn1
        rw [hn2, Option.some.injEq] at q1
        subst q1
        rw [Nat.add_sub_cancel, q3]; simp
      · intro hne
        obtain ⟨y, hy⟩ := Option.ne_none_iff_exists'.1 hne
        obtain ⟨q1, n, q2, q3, q4, q5⟩ := o13 _ _ _ hy
        rw [(hMM l).1] at q1 q2 q3
        rw [(hMM l).2] at q4
        refine ⟨l + IB, List.mem_iff_getElem?.2 ⟨n - off k, (hget _ _).2 ⟨by omega, by rw [show off k + (n - off k) = n by omega]; exact q4⟩⟩, by omega⟩
    · rw [List.pairwise_map, List.pairwise_iff_getElem]
      intro a b ha hb hab
      have ga := (hget a _).1 (List.getElem?_eq_getElem ha)
      have gb := (hget b _).1 (List.getElem?_eq_getElem hb)
      obtain ⟨m, _, q1, _⟩ := o11 k (off k + a) hko (by omega) ga.1
      obtain ⟨m', _, q1', _⟩ := o11 k (off k + b) hko (by omega) gb.1
      have := o12 k (off k + a) (off k + b) _ _ hko (by omega) (by omega) gb.1 ga.2 gb.2
      rw [ga.2, Option.some.injEq] at q1
      rw [gb.2, Option.some.injEq] at q1'
      omega
  · rw [if_neg hk]
    refine ⟨fun l => ⟨fun hm => (by cases hm), fun hne => ?_⟩, List.Pairwise.nil⟩
    obtain ⟨y, hy⟩ := Option.ne_none_iff_exists'.1 hne
    have := (o13 _ _ _ hy).1
    rw [(hMM l).1] at this
    omega

end CMat

/-- State of a compressed_matrix: sizes, values (absent = zero) and the stored positions, by (major, minor) index. -/
def CMatRep [Zero R] (o : Orient) (IB : Nat) (v : CMat R) (r c : Nat) (w : Nat → Nat → R) (Ls : List Nat) (S : Nat → List Nat) : Prop :=
  ∃ s, CMat.Inv o IB v s ∧ o.sizeM s.rows s.cols = r ∧ o.sizem s.rows s.cols = c ∧ (w = fun k l => (s.val (o.indexM k l, o.indexm k l)).getD 0) ∧
    Ls = List.range r ∧ S = v.lineIdx IB

theorem cmat_mem [Zero R] {o : Orient} {IB : Nat} {v : CMat R} {s : SparseSpec.CMatS R} (h : CMat.Inv o IB v s) {r : Nat} {k l : Nat} (hk : k < r) :
    (k ∈ List.range r ∧ l ∈ v.lineIdx IB k) ↔ s.val (o.indexM k l, o.indexm k l) ≠ none := by
  rw [← (h.lineIdx k).1 l]
  exact ⟨fun h => h.2, fun hl => ⟨List.mem_range.2 hk, hl⟩⟩

theorem compressedMatrix_supports [Zero R] (dbg : Bool) (o : Orient) (IB : Nat) (junk : CMat.Junk R) :
    (MT.compressed dbg o IB junk : MT (CMat R) R).Supports .sparse (CMatRep o IB) := by
  have hlt : ∀ {k l r c : Nat}, k < o.sizeM r c → l < o.sizem r c → o.indexM k l < r ∧ o.indexm k l < c := by
    intro k l r c hk hl; cases o <;> first | exact ⟨hk, hl⟩ | exact ⟨hl, hk⟩
  have hmm : ∀ (i j : Nat), o.indexM (o.indexM i j) (o.indexm i j) = i ∧ o.indexm (o.indexM i j) (o.indexm i j) = j := by
    intro i j; cases o <;> exact ⟨rfl, rfl⟩
  have hinj : ∀ {k l i j : Nat}, (o.indexM i j, o.indexm i j) = (o.indexM k l, o.indexm k l) ↔ i = k ∧ j = l := by
    intro k l i j; cases o <;> simp [Orient.indexM, Orient.indexm] <;> tauto
  have hupd : ∀ (val : Nat × Nat → Option R) (k l : Nat) (t : R), (fun i j => ((if (o.indexM i j, o.indexm i j) = (o.indexM k l, o.indexm k l) then some t
      else val (o.indexM i j, o.indexm i j)) : Option R).getD 0) = update2 (fun i j => (val (o.indexM i j, o.indexm i j)).getD 0) k l t := by
    intro val k l t
    funext i j
    simp only [update2, hinj]
    split <;> rfl
  have hmod : ∀ v r c w Ls S, CMatRep o IB v r c w Ls S → ∀ k l, k < r → l < c → ∀ t : R, ∃ v', v.modify dbg o IB 0 junk (o.indexM k l) (o.indexm k l) (fun _ => t) = .ok v' ∧
      CMatRep o IB v' r c (update2 w k l t) (List.range r) (v'.lineIdx IB) ∧
      ∀ i j, i < r → j < c → ((i ∈ List.range r ∧ j ∈ v'.lineIdx IB i) ↔ (i = k ∧ j = l) ∨ (i ∈ Ls ∧ j ∈ S i)) := by
    rintro v r c w Ls S ⟨s, h, h1, h2, h3, h4, h5⟩ k l hk hl t
    have hb := hlt (h1 ▸ hk) (h2 ▸ hl)
    obtain ⟨v', e, h'⟩ := CMat.step_inv dbg o IB 0 junk v s (.modify (o.indexM k l) (o.indexm k l) (fun _ => t)) h hb
    refine ⟨v', e, ⟨_, h', h1, h2, ?_, rfl, rfl⟩, fun i j hi hj => ?_⟩
    · rw [h3, ← hupd]; rfl
    · rw [cmat_mem h' hi, h4, h5, cmat_mem h hi]
      simp only [SparseSpec.cmstep]
      by_cases he : i = k ∧ j = l
      · rw [if_pos (hinj.2 he)]; simp [he]
      · rw [if_neg (fun c => he (hinj.1 c))]; simp [he]
  refine ⟨⟨?_, ?_, ?_, ?_, ?_, ?_, ?_⟩, ?_, ⟨?_, ?_⟩, rfl⟩
  · rintro v r c w Ls S ⟨s, ⟨E, h, a1, a2, a3⟩, h1, h2, h3, h4, h5⟩
    exact ⟨by rw [← h1, ← a1, ← a2]; rfl, by rw [← h2, ← a1, ← a2]; rfl⟩
  · rintro v r c w Ls S ⟨s, ⟨E, h, a1, a2, a3⟩, h1, h2, h3, h4, h5⟩
    refine ⟨?_, ?_, fun k hk => ?_⟩
    · show List.range (o.sizeM v.size1 v.size2) = Ls
      rw [a1, a2, h1, h4]
    · rw [h4]; exact List.pairwise_lt_range
    · rw [h4, List.mem_range] at hk; exact hk
  · rintro v r c w Ls S ⟨s, h, h1, h2, h3, h4, h5⟩ k hk
    rw [h5]
    refine ⟨rfl, (h.lineIdx k).2, fun l hl => ?_⟩
    rw [(h.lineIdx k).1] at hl
    obtain ⟨_, _, _, _, _, a5⟩ := h
    by_contra hc
    refine hl (a5 _ _ fun hb => hc ?_)
    rw [← h2]
    cases o
    · exact hb.2
    · exact hb.1
  · rintro v r c w Ls S ⟨s, h, h1, h2, h3, h4, h5⟩ k l hk hl hn
    rw [h4, h5, cmat_mem h hk, not_not] at hn
    rw [h3]; simp only [hn]; rfl
  · rintro v r c w Ls S ⟨s, h, h1, h2, h3, h4, h5⟩ k hk l hl
    have hk' : k < r := by rw [h4, List.mem_range] at hk; exact hk
    have hs : s.val (o.indexM k l, o.indexm k l) ≠ none := by rw [← (h.lineIdx k).1 l, ← h5]; exact hl
    have hb : o.indexM k l < s.rows ∧ o.indexm k l < s.cols := by
      obtain ⟨_, _, _, _, _, a5⟩ := h
      by_contra hc; exact hs (a5 _ _ hc)
    rw [h3]
    exact (h.observes dbg o IB 0).2.2.1 _ _ hb.1 hb.2
  · rintro v r c w Ls S ⟨s, h, h1, h2, h3, h4, h5⟩ k hk l hl t
    have hk' : k < r := by rw [h4, List.mem_range] at hk; exact hk
    have hs : s.val (o.indexM k l, o.indexm k l) ≠ none := by rw [← (h.lineIdx k).1 l, ← h5]; exact hl
    have hb : o.indexM k l < s.rows ∧ o.indexm k l < s.cols := by
      obtain ⟨_, _, _, _, _, a5⟩ := h
      by_contra hc; exact hs (a5 _ _ hc)
    have hl' : l < c := by
      rw [← h2]
      cases o
      · exact hb.2
      · exact hb.1
    obtain ⟨v', e, hr, _⟩ := hmod v r c w Ls S ⟨s, h, h1, h2, h3, h4, h5⟩ k l hk' hl' t
    obtain ⟨E, hcore, a1, a2, a3, a4⟩ := h
    have hm' : o.indexm (o.indexM k l) (o.indexm k l) < o.sizem v.size1 v.size2 := by rw [a1, a2]; exact CMat.minor_lt o hb.1 hb.2
    rcases hcore.slot hm' with ⟨n, x, q1, q2, q3, q4, q5⟩ | ⟨q1, q2⟩
    · have hn : n < v.val.length := (List.getElem?_eq_some_iff.1 q5).1
      have hv' : v' = { v with val := v.val.set n t } := by
        unfold CMat.modify at e
        rw [q1, bind_ok] at e
        simp only [bind_ok, rd_ok hn, wr_ok hn] at e
        exact (Except.ok.inj e).symm
      subst hv'
      refine ⟨{ v with val := v.val.set n t }, ?_, ?_⟩
      · show (do match ← v.slot o IB (o.indexM k l) (o.indexm k l) with | none => .error .ub | some n => do let val ← wr dbg v.val n t; .ok { v with val := val }) = _
        rw [q1, bind_ok]
        simp only [wr_ok hn, bind_ok]
      · rw [h4, h5]; exact hr
    · rw [a1, a2, CMat.flat_at o s hb.1 hb.2] at q2
      exact absurd q2 hs
  · intro v r c w Ls S _ hc; exact absurd rfl hc
  · intro v r c w Ls S h k l hk hl t
    obtain ⟨v', e, h', hv⟩ := hmod v r c w Ls S h k l hk hl t
    exact ⟨v', _, _, e, h', hv⟩
  · rintro v r c w Ls S ⟨s, h, h1, h2, h3, h4, h5⟩
    obtain ⟨v', e, h'⟩ := CMat.step_inv dbg o IB 0 junk v s .clear h trivial
    refine ⟨v', _, _, e, ⟨_, h', h1, h2, ?_, rfl, rfl⟩, .inl fun i j hi _ => ?_⟩
    · rfl
    · rw [cmat_mem h' hi]; simp [SparseSpec.cmstep]
  · rintro v r c w Ls S ⟨s, h, h1, h2, h3, h4, h5⟩ k l hk hl hn t
    have hb := hlt (h1 ▸ hk) (h2 ▸ hl)
    have hnone : s.val (o.indexM k l, o.indexm k l) = none := by
      rcases hn with hn | hn
      · rw [h4, h5, cmat_mem h hk, not_not] at hn; exact hn
      · -- a sparse matrix that is full in the sense of `Full` in every state: the empty one is not
        exfalso
        obtain ⟨v0, e0, i0⟩ := CMat.inv_ctor dbg o IB junk (o.indexM 1 1) (o.indexm 1 1) 0
        have hall := hn.all v0 1 1 (fun _ _ => 0) [0] (v0.lineIdx IB) ⟨_, i0, by cases o <;> rfl, by cases o <;> rfl, by rfl, rfl, rfl⟩
        have hx : (0 : Nat) ∈ v0.lineIdx IB 0 := by rw [hall.2 0 (by simp)]; simp
        rw [(i0.lineIdx 0).1] at hx
        exact hx rfl
    obtain ⟨v', e, h'⟩ := CMat.step_inv dbg o IB 0 junk v s (.insert (o.indexM k l) (o.indexm k l) t) h ⟨hb.1, hb.2, hnone⟩
    refine ⟨v', _, _, e, ⟨_, h', h1, h2, ?_, rfl, rfl⟩, fun i j hi hj => ?_⟩
    · rw [h3, ← hupd]; rfl
    · rw [cmat_mem h' hi, h4, h5, cmat_mem h hi]
      simp only [SparseSpec.cmstep]
      by_cases he : i = k ∧ j = l
      · rw [if_pos (hinj.2 he)]; simp [he]
      · rw [if_neg (fun c => he (hinj.1 c))]; simp [he]

/-! ### triangular_matrix -/
section tri
open Packed PackedSpec

/-- State of a lower / upper triangular matrix, by (major, minor) index. -/
def TriMRep [Zero R] [One R] (dbg u : Bool) (o : Orient) (m : TMat R) (r c : Nat) (w : Nat → Nat → R) (Ls : List Nat) (S : Nat → List Nat) : Prop :=
  o.sizeM m.size1 m.size2 = r ∧ o.sizem m.size1 m.size2 = c ∧ TWF ⟨.lower, u⟩ m ∧ Ls = List.range r ∧ S = (MT.tri dbg u o : MT (TMat R) R).its m ∧
  (∀ k l, k < r → l ∈ S k → m.get dbg ⟨.lower, u⟩ o (o.indexM k l) (o.indexm k l) = .ok (w k l)) ∧ ∀ k l, ¬ (k < r ∧ l ∈ S k) → w k l = 0

theorem tri_mem [Zero R] [One R] (dbg u : Bool) (o : Orient) (m : TMat R) (k l : Nat) (hk : k < o.sizeM m.size1 m.size2) :
    l ∈ (MT.tri dbg u o : MT (TMat R) R).its m k ↔ l < o.sizem m.size1 m.size2 ∧ Mutable ⟨.lower, u⟩ (o.indexM k l) (o.indexm k l) := by
  cases o <;> cases u <;> simp only [MT.tri, List.mem_range'_1, restrict1, restrict2, lmrestrict1, lmrestrict2, Mutable, Orient.sizem, Orient.sizeM, Orient.indexM,
    Orient.indexm] at hk ⊢ <;> omega

theorem tri_supports [Zero R] [One R] (dbg u : Bool) (o : Orient) :
    (MT.tri dbg u o : MT (TMat R) R).Supports .packed (TriMRep dbg u o) ∧ (MT.tri dbg u o : MT (TMat R) R).Supports .packedProxy (TriMRep dbg u o) := by
  have hlt : ∀ {k l r c : Nat}, k < o.sizeM r c → l < o.sizem r c → o.indexM k l < r ∧ o.indexm k l < c := by
    intro k l r c hk hl; cases o <;> first | exact ⟨hk, hl⟩ | exact ⟨hl, hk⟩
  have hinj : ∀ {k l i j : Nat}, (o.indexM i j = o.indexM k l ∧ o.indexm i j = o.indexm k l) ↔ i = k ∧ j = l := by
    intro k l i j; cases o <;> simp [Orient.indexM, Orient.indexm] <;> tauto
  have hL : (MT.tri dbg u o : MT (TMat R) R).Lawful (TriMRep dbg u o) := by
    refine ⟨?_, ?_, ?_, ?_, ?_, ?_, ?_⟩
    · rintro m r c w Ls S ⟨h1, h2, _⟩; exact ⟨h1, h2⟩
    · rintro m r c w Ls S ⟨h1, h2, h3, h4, h5, h6, h7⟩
      refine ⟨by rw [h4, ← h1]; rfl, by rw [h4]; exact List.pairwise_lt_range, fun k hk => by rw [h4] at hk; simpa using hk⟩
    · rintro m r c w Ls S ⟨h1, h2, h3, h4, h5, h6, h7⟩ k hk
      rw [h4, List.mem_range] at hk
      refine ⟨by rw [h5], ?_, fun l hl => ?_⟩
      · rw [h5]; cases o <;> exact List.pairwise_lt_range'
      · rw [h5, tri_mem dbg u o m k l (by omega)] at hl; omega
    · rintro m r c w Ls S ⟨h1, h2, h3, h4, h5, h6, h7⟩ k l hk hl hn
      refine h7 k l fun hh => hn ⟨by rw [h4]; simpa using hk, hh.2⟩
    · rintro m r c w Ls S ⟨h1, h2, h3, h4, h5, h6, h7⟩ k hk l hl
      rw [h4, List.mem_range] at hk
      exact h6 k l hk hl
    · rintro m r c w Ls S ⟨h1, h2, h3, h4, h5, h6, h7⟩ k hk l hl t
      rw [h4, List.mem_range] at hk
      have hm := hl
      rw [h5, tri_mem dbg u o m k l (by omega)] at hm
      have hb := hlt (h1.symm ▸ hk) hm.1
      have hf : Fit dbg ⟨.lower, u⟩ m.size1 m.size2 := fit_of _ _ _ _ (fun _ => .inl rfl)
      obtain ⟨m', e, b1, b2, b3, b4⟩ := tset_get hf h3 (o := o) hb.1 hb.2 hm.2 t
      have hS : (MT.tri dbg u o : MT (TMat R) R).its m' = (MT.tri dbg u o : MT (TMat R) R).its m := by
        funext k; simp only [MT.tri, b1, b2]
      refine ⟨m', e, by rw [b1, b2]; exact h1, by rw [b1, b2]; exact h2, b3, h4, by rw [hS]; exact h5, fun i j hi hj => ?_, fun i j hn => ?_⟩
      · have hj' := hj
        rw [h5, tri_mem dbg u o m i j (by omega)] at hj'
        have hb' := hlt (h1.symm ▸ hi) hj'.1
        rw [b4 _ _ hb'.1 hb'.2]
        simp only [hinj, update2]
        split
        · rfl
        · exact h6 i j hi hj
      · simp only [update2]
        rw [if_neg (by rintro ⟨rfl, rfl⟩; exact hn ⟨hk, hl⟩)]
        exact h7 i j hn
    · rintro m r c w Ls S ⟨h1, h2, h3, h4, h5, h6, h7⟩ _
      refine ⟨⟨0, by rw [h4, List.length_range, List.range_eq_range']⟩, fun k _ => ?_⟩
      rw [h5]
      cases o <;> simp only [MT.tri, List.length_range'] <;> exact ⟨_, rfl⟩
  exact ⟨⟨hL, rfl⟩, hL, rfl⟩

theorem triMRep_init [Zero R] [One R] (dbg u : Bool) (o : Orient) (m : TMat R) (hw : TWF ⟨.lower, u⟩ m) :
    ∃ w, TriMRep dbg u o m (o.sizeM m.size1 m.size2) (o.sizem m.size1 m.size2) w (List.range (o.sizeM m.size1 m.size2)) ((MT.tri dbg u o : MT (TMat R) R).its m) := by
  classical
  have hf : Fit dbg ⟨.lower, u⟩ m.size1 m.size2 := fit_of _ _ _ _ (fun _ => .inl rfl)
  have hg : ∀ k l, k < o.sizeM m.size1 m.size2 ∧ l ∈ (MT.tri dbg u o : MT (TMat R) R).its m k → ∃ v, m.get dbg ⟨.lower, u⟩ o (o.indexM k l) (o.indexm k l) = .ok v := by
    rintro k l ⟨hk, hl⟩
    rw [tri_mem dbg u o m k l hk] at hl
    have hb : o.indexM k l < m.size1 ∧ o.indexm k l < m.size2 := by cases o <;> first | exact ⟨hk, hl.1⟩ | exact ⟨hl.1, hk⟩
    have hlen : cellOf ⟨.lower, u⟩ o (o.indexM k l) m.size1 (o.indexm k l) m.size2 < m.data.length := by
      rw [hw]; exact cellOf_lt hb.1 hb.2 ((other_iff _ _ _).2 hl.2)
    exact ⟨_, by rw [tget_eq hf hb.1 hb.2 hl.2, rd_ok hlen]⟩
  refine ⟨fun k l => if h : k < o.sizeM m.size1 m.size2 ∧ l ∈ (MT.tri dbg u o : MT (TMat R) R).its m k then (hg k l h).choose else 0, rfl, rfl, hw, rfl, rfl, ?_, ?_⟩
  · intro k l hk hl
    simp only [And.intro hk hl, dif_pos, and_self]
    exact (hg k l ⟨hk, hl⟩).choose_spec
  · intro k l hn; simp only [hn, dif_neg, not_false_eq_true]

/-- **C68** for lower and upper triangular matrices: `m = e` / `+= e` / `-= e` (as `matrix_assign` performs it) stores the expression's elements in the triangle,
for every dense or packed right-hand side, and for sparse ones that are zero outside the triangle under `+=` and `-=`. -/
theorem C68_triangular [Ring R] [DecidableEq R] (dbg : Bool) (mode : ProdFn.Mode) (u : Bool) (o : Orient) (F : AssignF) (m : TMat R) (hw : TWF ⟨.lower, u⟩ m)
    (e : MExp R) (a : Nat → Nat → R) (he : e.Presents (o.sizeM m.size1 m.size2) (o.sizem m.size1 m.size2) a)
    (hcl : e.cat = .sparse → F.computed = true)
    (hout : e.cat = .sparse → ∀ k l, k < o.sizeM m.size1 m.size2 → l < o.sizem m.size1 m.size2 → ¬ Mutable ⟨.lower, u⟩ (o.indexM k l) (o.indexm k l) → a k l = 0) :
    ∃ m', assign dbg mode .packed (MT.tri dbg u o) F e m = .ok m' ∧ m'.size1 = m.size1 ∧ m'.size2 = m.size2 ∧ TWF ⟨.lower, u⟩ m' ∧
      ∀ k l, k < o.sizeM m.size1 m.size2 → l < o.sizem m.size1 m.size2 → Mutable ⟨.lower, u⟩ (o.indexM k l) (o.indexm k l) →
        ∃ x, m.get dbg ⟨.lower, u⟩ o (o.indexM k l) (o.indexm k l) = .ok x ∧ m'.get dbg ⟨.lower, u⟩ o (o.indexM k l) (o.indexm k l) = .ok (F.apply x (a k l)) := by
  obtain ⟨w, h⟩ := triMRep_init dbg u o m hw
  obtain ⟨m', w', e1, h1, h2⟩ := C68_packed_target dbg mode .packed F e _ _ a m w _ _ (tri_supports dbg u o).1 (.inl rfl) he h (fun _ => hcl)
    (fun hc k l hk hl hn => hout hc k l hk hl fun hm => hn ⟨List.mem_range.2 hk, (tri_mem dbg u o m k l hk).2 ⟨hl, hm⟩⟩)
  obtain ⟨a1, a2, a3, a4, a5, a6, a7⟩ := h1
  refine ⟨m', e1, by cases o <;> simpa [Orient.sizeM, Orient.sizem] using (by assumption), by cases o <;> simpa [Orient.sizeM, Orient.sizem] using (by assumption), a3, ?_⟩
  intro k l hk hl hm
  have hv := (tri_mem dbg u o m k l hk).2 ⟨hl, hm⟩
  refine ⟨w k l, h.2.2.2.2.2.1 k l hk hv, ?_⟩
  rw [a6 k l hk hv, h2 k l, if_pos ⟨List.mem_range.2 hk, hv⟩]

end tri

/-! ## Corollaries for the containers' public interface -/

/-- **C68** for a dense matrix, `noalias (m) = e`, `+=`, `-=`: every element. -/
theorem C68_dense [Ring R] [DecidableEq R] (dbg : Bool) (mode : ProdFn.Mode) (o : Orient) (F : AssignF) (m : Dense R) (hw : m.WF) (e : MExp R) (a : Nat → Nat → R)
    (he : e.Presents (o.sizeM m.size1 m.size2) (o.sizem m.size1 m.size2) (fun k l => a (o.indexM k l) (o.indexm k l))) :
    ∃ data, assign dbg mode .dense (MT.view dbg (o.sizeM m.size1 m.size2) (o.sizem m.size1 m.size2) (fun k l => o.elementRaw (o.indexM k l) m.size1 (o.indexm k l) m.size2)) F e m.data = .ok data ∧
      ({ m with data := data } : Dense R).WF ∧ ∀ i j, i < m.size1 → j < m.size2 →
        ∃ x, m.get dbg o i j = .ok x ∧ ({ m with data := data } : Dense R).get dbg o i j = .ok (F.apply x (a i j)) := by
  have hlt : ∀ {k l r c : Nat}, k < o.sizeM r c → l < o.sizem r c → o.indexM k l < r ∧ o.indexm k l < c := by
    intro k l r c hk hl; cases o <;> first | exact ⟨hk, hl⟩ | exact ⟨hl, hk⟩
  have hmm : ∀ (i j : Nat), o.indexM (o.indexM i j) (o.indexm i j) = i ∧ o.indexm (o.indexM i j) (o.indexm i j) = j := by
    intro i j; cases o <;> exact ⟨rfl, rfl⟩
  have hinj : ∀ k l i j, k < o.sizeM m.size1 m.size2 → l < o.sizem m.size1 m.size2 → i < o.sizeM m.size1 m.size2 → j < o.sizem m.size1 m.size2 →
      o.elementRaw (o.indexM k l) m.size1 (o.indexm k l) m.size2 = o.elementRaw (o.indexM i j) m.size1 (o.indexm i j) m.size2 → k = i ∧ l = j := by
    intro k l i j hk hl hi hj he
    have h1 := hlt hk hl
    have h2 := hlt hi hj
    obtain ⟨b1, b2⟩ := elementRaw_inj o h1.1 h1.2 h2.1 h2.2 he
    exact ⟨by have := hmm k l; rw [b1, b2] at this; rw [← this.1, (hmm i j).1], by have := hmm k l; rw [b1, b2] at this; rw [← this.2, (hmm i j).2]⟩
  have hr : MViewRep (o.sizeM m.size1 m.size2) (o.sizem m.size1 m.size2) (fun k l => o.elementRaw (o.indexM k l) m.size1 (o.indexm k l) m.size2) m.data m.data
      (o.sizeM m.size1 m.size2) (o.sizem m.size1 m.size2) (fun k l => m.data.getD (o.elementRaw (o.indexM k l) m.size1 (o.indexm k l) m.size2) 0)
      (if o.sizem m.size1 m.size2 = 0 then [] else List.range (o.sizeM m.size1 m.size2)) (fun _ => List.range (o.sizem m.size1 m.size2)) := by
    refine ⟨rfl, rfl, rfl, rfl, rfl, fun k l hk hl => ?_, fun _ _ => rfl⟩
    have hb := hlt hk hl
    have : o.elementRaw (o.indexM k l) m.size1 (o.indexm k l) m.size2 < m.data.length := by rw [hw]; exact elementRaw_lt o hb.1 hb.2
    simp only [List.getD_eq_getElem?_getD, List.getElem?_eq_getElem this, Option.getD_some]
  obtain ⟨data, w', Ls', S', e1, h1, h2⟩ := C68_matrix_assign dbg mode .dense F e _ _ _ m.data _ _ _ (mview_supports dbg _ _ _ m.data hinj).1 (by simp) he hr
  obtain ⟨a1, a2, a3, a4, a5, a6, a7⟩ := h1
  have hw' : ({ m with data := data } : Dense R).WF := by show data.length = _; rw [a5, hw]
  refine ⟨data, e1, hw', fun i j hi hj => ?_⟩
  have hk : o.indexM i j < o.sizeM m.size1 m.size2 := CMat.major_lt o hi hj
  have hl : o.indexm i j < o.sizem m.size1 m.size2 := CMat.minor_lt o hi hj
  have hin : o.elementRaw i m.size1 j m.size2 < m.data.length := by rw [hw]; exact elementRaw_lt o hi hj
  have hg : ∀ (d : List R) (x : R), d.length = m.data.length → d[o.elementRaw i m.size1 j m.size2]? = some x → ({ m with data := d } : Dense R).get dbg o i j = .ok x := by
    intro d x hd hx
    simp only [Dense.get, Orient.element, check_true hi, check_true hj, bind_ok, pure_eq_ok, rd_eq_ok, hx]
  have h2' := h2 _ _ hk hl
  have h6' := a6 _ _ hk hl
  simp only [hmm] at h2' h6'
  refine ⟨m.data[o.elementRaw i m.size1 j m.size2], hg m.data _ rfl (List.getElem?_eq_getElem hin), ?_⟩
  refine hg data _ a5 ?_
  rw [h6', h2', List.getD_eq_getElem?_getD, List.getElem?_eq_getElem hin]; rfl

/-- **C68** for a compressed_matrix that satisfies its representation invariant (after any legal history, C24): `noalias (m) = e`, `+=`, `-=`. -/
theorem C68_compressed [Ring R] [DecidableEq R] (dbg : Bool) (mode : ProdFn.Mode) (o : Orient) (IB : Nat) (junk : CMat.Junk R) (F : AssignF) (v : CMat R)
    (s : SparseSpec.CMatS R) (h : CMat.Inv o IB v s) (e : MExp R) (a : Nat → Nat → R)
    (he : e.Presents (o.sizeM s.rows s.cols) (o.sizem s.rows s.cols) (fun k l => a (o.indexM k l) (o.indexm k l))) :
    ∃ v' s', assign dbg mode .sparse (MT.compressed dbg o IB junk) F e v = .ok v' ∧ CMat.Inv o IB v' s' ∧ s'.rows = s.rows ∧ s'.cols = s.cols ∧
      ∀ i j, i < s.rows → j < s.cols → v'.get dbg o IB 0 i j = .ok (F.apply ((s.val (i, j)).getD 0) (a i j)) := by
  have hmm : ∀ (i j : Nat), o.indexM (o.indexM i j) (o.indexm i j) = i ∧ o.indexm (o.indexM i j) (o.indexm i j) = j := by
    intro i j; cases o <;> exact ⟨rfl, rfl⟩
  obtain ⟨v', w', Ls', S', e1, ⟨s', h', b1, b2, b3, b4, b5⟩, h2⟩ := C68_matrix_assign dbg mode .sparse F e _ _ _ v _ _ _ (compressedMatrix_supports dbg o IB junk) (by simp) he
    ⟨s, h, rfl, rfl, rfl, rfl, rfl⟩
  have hr : s'.rows = s.rows := by cases o <;> assumption
  have hc : s'.cols = s.cols := by cases o <;> assumption
  refine ⟨v', s', e1, h', hr, hc, fun i j hi hj => ?_⟩
  rw [(h'.observes dbg o IB 0).2.2.1 i j (by omega) (by omega)]
  have := h2 _ _ (CMat.major_lt o hi hj) (CMat.minor_lt o hi hj)
  rw [b3] at this
  simp only [hmm] at this
  rw [this]

/-- A consequence of C66: assigning a 3 x 2 strict lower triangular matrix to a column_major dense matrix (release build) loses the element (2, 1), because the outer
iterators stop before the last column.  So the expression `e` below does *not* meet `MExp.Presents`, and C68 must exclude it. -/
theorem C68_strict_lower_refuted :
    Packed.TMat.get false ⟨.strict, false⟩ .row (⟨3, 2, [7, 7, 7]⟩ : Packed.TMat Int) 2 1 = .ok 7 ∧
    ∃ ls, Packed.TMat.traverse false .const ⟨.strict, false⟩ .row (⟨3, 2, [7, 7, 7]⟩ : Packed.TMat Int) .two = .ok ls ∧
    assign false .indexing .dense (MT.view false 2 3 (fun k l => Orient.elementRaw .col l 3 k 2)) .assign
      ⟨2, 3, .packed, ls, fun j i => Packed.TMat.get false ⟨.strict, false⟩ .row (⟨3, 2, [7, 7, 7]⟩ : Packed.TMat Int) i j⟩ [1, 1, 1, 1, 1, 1] = .ok [0, 7, 7, 0, 0, 0] := by
  refine ⟨by decide, [(0, [(1, 7), (2, 7)])], by decide, by decide⟩

/-- Non-vacuity: a dense target, a sparse right-hand side with a skipped line. -/
example : (⟨2, 3, .sparse, [(1, [(0, 5), (2, 6)])], fun i j => .ok (if i = 1 ∧ j = 0 then 5 else if i = 1 ∧ j = 2 then 6 else 0)⟩ : MExp Int).Presents 2 3
      (fun i j => if i = 1 ∧ j = 0 then 5 else if i = 1 ∧ j = 2 then 6 else 0) ∧
    assign true .indexing .dense (MT.view true 2 3 (fun k l => k * 3 + l)) .plus
      (⟨2, 3, .sparse, [(1, [(0, 5), (2, 6)])], fun i j => .ok (if i = 1 ∧ j = 0 then 5 else if i = 1 ∧ j = 2 then 6 else 0)⟩ : MExp Int) [1, 2, 3, 4, 5, 6] = .ok [1, 2, 3, 9, 5, 12] := by
  refine ⟨⟨⟨rfl, rfl⟩, fun _ _ _ _ => rfl, by simp, by simp, ?_, ?_, by simp, by simp⟩, by decide⟩
  · intro q hq
    simp only [List.mem_singleton] at hq
    subst hq
    simp
  · intro k l hk hl hn
    have := hn _ (List.mem_singleton.2 rfl)
    simp only [List.map_cons, List.map_nil, List.mem_cons, List.not_mem_nil, or_false, not_or] at this
    by_cases hk1 : k = 1
    · have := this hk1.symm; simp [this]
    · simp [hk1]

/-- Non-vacuity: the compressed_matrix of the C24 history and a dense right-hand side. -/
example : ∃ (v : CMat Int) (s : SparseSpec.CMatS Int), CMat.Inv .row 0 v s ∧ s.rows = 2 ∧ s.val (1, 1) = some 4 ∧
    (⟨2, 2, .dense, [(0, [(0, 1), (1, 2)]), (1, [(0, 3), (1, 4)])], fun i j => .ok ((2 * i + j + 1 : Nat) : Int)⟩ : MExp Int).Presents 2 2 (fun i j => ((2 * i + j + 1 : Nat) : Int)) := by
  obtain ⟨v0, e0, h0⟩ := CMat.inv_ctor (α := Int) true .row 0 cmJunk 2 2 0
  obtain ⟨v1, e1, h1⟩ := CMat.step_inv true .row 0 0 cmJunk v0 _ (.insert 1 1 4) h0 ⟨by decide, by decide, rfl⟩
  refine ⟨v1, _, h1, rfl, by simp [SparseSpec.cmstep], ⟨rfl, rfl⟩, fun _ _ _ _ => rfl, by simp, by simp, ?_, ?_, ?_, ?_⟩
  · intro q hq
    simp only [List.mem_cons, List.not_mem_nil, or_false] at hq
    rcases hq with rfl | rfl <;> simp
  · intro k l hk hl hn
    have hk' : k = 0 ∨ k = 1 := by omega
    have hl' : l = 0 ∨ l = 1 := by omega
    rcases hk' with rfl | rfl <;> rcases hl' with rfl | rfl <;> simp at hn
  · intro _
    refine ⟨⟨0, rfl⟩, fun q hq => ?_⟩
    simp only [List.mem_cons, List.not_mem_nil, or_false] at hq
    rcases hq with rfl | rfl <;> exact ⟨0, rfl⟩
  · intro _ _
    refine ⟨rfl, fun q hq => ?_⟩
    simp only [List.mem_cons, List.not_mem_nil, or_false] at hq
    rcases hq with rfl | rfl <;> rfl

end Ublas
