import Verif.Model.Operation
import Verif.Lemmas.Prod
import Mathlib.Algebra.BigOperators.Ring.Finset
import Mathlib.Algebra.BigOperators.Intervals
import Mathlib.Logic.Function.Basic
/-! # Loops that accumulate into a target -/
namespace Ublas
open Finset
variable {σ ι β R : Type}

/-- Element access reads and writes the elements `In` of the mathematical object `w` that the state stands for. -/
structure Acc.Lawful [DecidableEq ι] (A : Acc σ ι R) (In : ι → Prop) (Rep : σ → (ι → R) → Prop) : Prop where
  get : ∀ s w, Rep s w → ∀ i, In i → A.get s i = .ok (w i)
  set : ∀ s w, Rep s w → ∀ i, In i → ∀ t, ∃ s', A.set s i t = .ok s' ∧ Rep s' (Function.update w i t)

theorem loop_congr {f g : Nat → σ → M σ} : ∀ {n : Nat} {s : σ}, (∀ k s, k < n → f k s = g k s) → loop f n s = loop g n s
  | 0, _, _ => rfl
  | n + 1, s, h => by
    rw [loop, loop, loop_congr fun k s hk => h k s (by omega)]
    congr 1
    funext t
    exact h n t (by omega)

variable [CommRing R]

theorem Acc.Lawful.add [DecidableEq ι] {A : Acc σ ι R} {In : ι → Prop} {Rep : σ → (ι → R) → Prop} (h : A.Lawful In Rep) {s : σ} {w : ι → R} (hs : Rep s w) {i : ι} (hi : In i) (y : R) :
    ∃ s', A.add s i y = .ok s' ∧ Rep s' (fun k => w k + if k = i then y else 0) := by
  obtain ⟨s', e, h'⟩ := h.set s w hs i hi (w i + y)
  refine ⟨s', by simp only [Acc.add, h.get s w hs i hi, bind_ok, e], ?_⟩
  convert h' using 2 with k
  simp only [Function.update_apply]
  by_cases hk : k = i
  · subst hk; simp
  · simp [hk]

theorem foldlM_add {Rep : σ → (ι → R) → Prop} {f : σ → β → M σ} {g : β → ι → R} : ∀ (L : List β) (s : σ) (w : ι → R),
    (∀ s w b, b ∈ L → Rep s w → ∃ s', f s b = .ok s' ∧ Rep s' (fun i => w i + g b i)) → Rep s w →
    ∃ s', L.foldlM f s = .ok s' ∧ Rep s' (fun i => w i + (L.map (g · i)).sum)
  | [], s, w, _, h => ⟨s, rfl, by simpa using h⟩
  | b :: L, s, w, hf, h => by
    obtain ⟨s1, e1, h1⟩ := hf s w b (by simp) h
    obtain ⟨s2, e2, h2⟩ := foldlM_add L s1 _ (fun s w b hb => hf s w b (by simp [hb])) h1
    refine ⟨s2, by simp only [List.foldlM_cons, e1, bind_ok, e2], ?_⟩
    simpa [add_assoc] using h2

theorem loop_add {Rep : σ → (ι → R) → Prop} {f : Nat → σ → M σ} {g : Nat → ι → R} {n : Nat} {s : σ} {w : ι → R}
    (hf : ∀ k s w, k < n → Rep s w → ∃ s', f k s = .ok s' ∧ Rep s' (fun i => w i + g k i)) (h : Rep s w) :
    ∃ s', loop f n s = .ok s' ∧ Rep s' (fun i => w i + ∑ k ∈ range n, g k i) := by
  refine loop_inv (f := f) (n := n) (s := s) (fun k s => Rep s (fun i => w i + ∑ k ∈ range k, g k i)) (by simpa using h) ?_
  intro k t hk ht
  obtain ⟨s', e, h'⟩ := hf k t _ hk ht
  refine ⟨s', e, ?_⟩
  simpa [sum_range_succ, add_assoc] using h'

/-- Σ over the visited elements of `p.2 * w p.1`. -/
theorem sum_map_eq_dot {n : Nat} (w : Nat → R) : ∀ (l : List (Nat × R)), (∀ p ∈ l, p.1 < n) → (l.map fun p => p.2 * w p.1).sum = dot n (ProdFn.val l) w
  | [], _ => by simp [dot]
  | p :: l, h => by
    rw [ProdFn.dot_cons_left (h p (by simp)), List.map_cons, List.sum_cons, sum_map_eq_dot w l fun q hq => h q (by simp [hq])]

theorem Seq.Presents.sum_map {x : Seq R} {n : Nat} {v : Nat → R} (h : x.Presents n v) (w : Nat → R) :
    (x.els.map fun p => p.2 * w p.1).sum = Ublas.dot n v w := by
  rw [sum_map_eq_dot w x.els fun p hp => (h.vals p hp).1]
  exact ProdFn.dot_congr (fun k hk => h.val hk) fun _ _ => rfl

theorem list_sum_comm {β γ : Type} (l : List β) (t : Finset γ) (f : β → γ → R) : (l.map fun b => ∑ c ∈ t, f b c).sum = ∑ c ∈ t, (l.map fun b => f b c).sum := by
  induction l with
  | nil => simp
  | cons b l ih => simp [ih, sum_add_distrib]

/-- Σ over a sorted list of lines of something that vanishes on the skipped ones. -/
theorem sum_map_lines {n : Nat} {ls : List Nat} (hs : ls.Pairwise (· < ·)) (hlt : ∀ i ∈ ls, i < n) (f : Nat → R) (hz : ∀ i, i < n → i ∉ ls → f i = 0) :
    (ls.map f).sum = ∑ i ∈ range n, f i := by
  have hnd : ls.Nodup := hs.imp fun h => Nat.ne_of_lt h
  rw [← List.sum_toFinset f hnd]
  refine sum_subset (fun i hi => ?_) fun i hi hn => hz i (by simpa using hi) (by simpa using hn)
  simpa using hlt i (by simpa using hi)

end Ublas
