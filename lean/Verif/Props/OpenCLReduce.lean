import Verif.Model.OpenCLReduce
import Mathlib.Algebra.BigOperators.Intervals
import Mathlib.Algebra.BigOperators.Fin
import Mathlib.Tactic.Ring
/-! # C131: the reductions of the OpenCL back end -/
namespace Ublas.OpenCL
open Ublas Finset
variable {R : Type} [CommRing R]

theorem sumWords_ok (f : R → R) {m : Mem R} {b count : Nat} {x : Nat → R} (h : ∀ k, k < count → (m b)[k]? = some (x k)) :
    sumWords f m b count = .ok (∑ k ∈ range count, f (x k)) := by
  obtain ⟨t, e, ht⟩ := loop_inv (f := fun i s => do
    let x ← m.read (b, i)
    .ok (s + f x)) (n := count) (s := (0 : R)) (fun k s => s = ∑ i ∈ range k, f (x i)) (by simp) (fun k s hk hs => by
      have : m.read (b, k) = .ok (x k) := by simp only [Mem.read, h k hk]
      exact ⟨s + f (x k), by simp only [this, bind_ok], by rw [hs, sum_range_succ]⟩)
  rw [ht] at e; exact e

omit [CommRing R] in
/-- The state after the library call. -/
theorem alloc_frame {m : Mem R} {tmp n b : Nat} {junk : Nat → R} (hb : b ≠ tmp) : (m.alloc tmp n junk) b = m b := by simp [Mem.alloc, hb]

omit [CommRing R] in
theorem reduced (t : Num) (junk : Nat → R) (m : Mem R) (tmp : Nat) (s : R) : ∃ m', (m.alloc tmp t.words junk).write (tmp, 0) s = .ok m' ∧
    element0 t tmp m' = .ok (match t with | .float | .double => [s] | .complexFloat | .complexDouble => [s, junk 1]) := by
  cases t <;> refine ⟨_, by simp [Mem.write, Mem.alloc, Num.words]; rfl, ?_⟩ <;> simp [element0, Num.words, Mem.read, List.range_succ]

/-- What the reductions return, for every element type and every contents of uninitialised memory. -/
theorem aSum_eq (abs : R → R) (junk : Nat → R) (t : Num) {v : DVec} {tmp : Nat} {m : Mem R} {x : Nat → R} (hv : v.buf ≠ tmp) (hn : v.size ≠ 0)
    (h : ∀ k, k < v.size * t.words → (m v.buf)[k]? = some (x k)) :
    aSum abs junk t v tmp m = .ok (match t with
      | .float | .double => [∑ k ∈ range v.size, abs (x k)]
      | .complexFloat | .complexDouble => [∑ k ∈ range (v.size * 2), abs (x k), junk 1]) := by
  have hs := sumWords_ok abs (m := m.alloc tmp t.words junk) (b := v.buf) (count := v.size * t.words) (x := x) (by rw [alloc_frame hv]; exact h)
  obtain ⟨m', e1, e2⟩ := reduced t junk m tmp (∑ k ∈ range (v.size * t.words), abs (x k))
  cases t <;> simp only [Num.words, Nat.mul_one] at hs e1 e2 <;> simp only [aSum, clAsum, if_neg hn, Num.words, Nat.mul_one, hs, bind_ok, e1, e2] <;> simp

theorem norm2_eq (sqrt : R → R) (junk : Nat → R) (t : Num) {v : DVec} {tmp : Nat} {m : Mem R} {x : Nat → R} (hv : v.buf ≠ tmp) (hn : v.size ≠ 0)
    (h : ∀ k, k < v.size * t.words → (m v.buf)[k]? = some (x k)) :
    norm2 sqrt junk t v tmp m = .ok (match t with
      | .float | .double => [sqrt (∑ k ∈ range v.size, x k * x k)]
      | .complexFloat | .complexDouble => [sqrt (∑ k ∈ range (v.size * 2), x k * x k), junk 1]) := by
  have hs := sumWords_ok (fun y => y * y) (m := m.alloc tmp t.words junk) (b := v.buf) (count := v.size * t.words) (x := x) (by rw [alloc_frame hv]; exact h)
  obtain ⟨m', e1, e2⟩ := reduced t junk m tmp (sqrt (∑ k ∈ range (v.size * t.words), x k * x k))
  cases t <;> simp only [Num.words, Nat.mul_one] at hs e1 e2 <;> simp only [norm2, clNrm2, if_neg hn, Num.words, Nat.mul_one, hs, bind_ok, e1, e2] <;> simp

/-- `t` is a real type. -/
def Num.Real (t : Num) : Prop := t = .float ∨ t = .double

/-- **C131** (partial) `a_sum` and `norm_1` of a device vector of at least one real element are Σ |x_i|, `norm_2` is √ Σ x_i², whatever uninitialised memory contains.  Missing: empty vectors
and complex elements, where it is false (`C131_empty_refuted`, `C131_complex_refuted`). -/
theorem C131_norms_partial (abs sqrt : R → R) (junk : Nat → R) {t : Num} (ht : t.Real) {v : DVec} {tmp : Nat} {m : Mem R} {x : Nat → R} (hv : v.buf ≠ tmp) (hn : v.size ≠ 0)
    (h : ∀ k, k < v.size → (m v.buf)[k]? = some (x k)) :
    aSum abs junk t v tmp m = .ok [∑ k ∈ range v.size, abs (x k)] ∧ norm1 abs junk t v tmp m = .ok [∑ k ∈ range v.size, abs (x k)] ∧
      norm2 sqrt junk t v tmp m = .ok [sqrt (∑ k ∈ range v.size, x k * x k)] := by
  have hw : t.words = 1 := by rcases ht with rfl | rfl <;> rfl
  have h' : ∀ k, k < v.size * t.words → (m v.buf)[k]? = some (x k) := by rw [hw, Nat.mul_one]; exact h
  have a := aSum_eq abs junk t hv hn h'
  have b := norm2_eq sqrt junk t hv hn h'
  rcases ht with rfl | rfl <;> exact ⟨a, a, b⟩

theorem sum_getD (f : R → R) : ∀ v : List R, ∑ k ∈ range v.length, f (v.getD k 0) = (v.map f).sum
  | [] => by simp
  | x :: v => by
    rw [List.length_cons, sum_range_succ', List.map_cons, List.sum_cons, ← sum_getD f v, add_comm]
    simp

theorem sum_zip : ∀ a b : List R, b.length = a.length → ∑ k ∈ range a.length, a.getD k 0 * b.getD k 0 = (a.zipWith (· * ·) b).sum
  | [], _, _ => by simp
  | x :: a, [], h => by simp at h
  | x :: a, y :: b, h => by
    rw [List.length_cons, sum_range_succ', List.zipWith_cons_cons, List.sum_cons, ← sum_zip a b (by simpa using h), add_comm]
    simp

/-- **C131** (partial) the host versions, which leave the vector alone. -/
theorem C131_norms_host_partial (abs sqrt : R → R) (junk : Nat → R) {t : Num} (ht : t.Real) (v : List R) (hn : v ≠ []) :
    aSumHost abs junk t v.length v = .ok [(v.map abs).sum] ∧ norm2Host sqrt junk t v.length v = .ok [sqrt (v.map fun x => x * x).sum] := by
  have hl : v.length ≠ 0 := by simpa using hn
  obtain ⟨a, -, b⟩ := C131_norms_partial abs sqrt junk ht (v := ⟨v.length, 0⟩) (tmp := 1) (m := hostMem v [] 0 junk) (x := fun k => v.getD k 0) Nat.zero_ne_one hl
    (fun k hk => by simp only at hk; simp [hostMem, List.getD, hk])
  refine ⟨?_, ?_⟩
  · rw [← sum_getD]; exact a
  · rw [← sum_getD (fun x => x * x)]; exact b

/-- **C131** what they return for complex elements: the real part is right (Σ |re| + |im|, the BLAS convention, and the Euclidean norm), the imaginary part is whatever the new buffer contained. -/
theorem C131_complex (abs sqrt : R → R) (junk : Nat → R) {t : Num} (ht : ¬ t.Real) {v : DVec} {tmp : Nat} {m : Mem R} {re im : Nat → R} (hv : v.buf ≠ tmp) (hn : v.size ≠ 0)
    (h : ∀ k, k < v.size → (m v.buf)[2 * k]? = some (re k) ∧ (m v.buf)[2 * k + 1]? = some (im k)) :
    aSum abs junk t v tmp m = .ok [∑ k ∈ range v.size, (abs (re k) + abs (im k)), junk 1] ∧
      norm2 sqrt junk t v tmp m = .ok [sqrt (∑ k ∈ range v.size, (re k * re k + im k * im k)), junk 1] := by
  have hw : t.words = 2 := by cases t <;> first | rfl | exact absurd (by simp [Num.Real]) ht
  have h' : ∀ k, k < v.size * t.words → (m v.buf)[k]? = some (if k % 2 = 0 then re (k / 2) else im (k / 2)) := by
    intro k hk
    rw [hw] at hk
    obtain ⟨g1, g2⟩ := h (k / 2) (by omega)
    split
    · rw [← g1]; congr 1; omega
    · rw [← g2]; congr 1; omega
  have split2 : ∀ (f : R → R) n, ∑ k ∈ range (n * 2), f (if k % 2 = 0 then re (k / 2) else im (k / 2)) = ∑ k ∈ range n, (f (re k) + f (im k)) := by
    intro f n
    induction n with
    | zero => simp
    | succ n ih =>
      rw [show (n + 1) * 2 = n * 2 + 1 + 1 from by omega, sum_range_succ, sum_range_succ, ih, sum_range_succ,
        if_pos (by omega), if_neg (by omega), show n * 2 / 2 = n from by omega, show (n * 2 + 1) / 2 = n from by omega, add_assoc]
  have a := aSum_eq abs junk t hv hn h'
  have b := norm2_eq sqrt junk t hv hn h'
  have s1 := split2 abs v.size
  have s2 := split2 (fun y => y * y) v.size
  cases t
  · exact absurd (.inl rfl) ht
  · exact absurd (.inr rfl) ht
  all_goals
    simp only [s1, s2] at a b
    exact ⟨a, b⟩

/-- **C131** refuted for complex elements: `a_sum` and `norm_2` need not be real; their imaginary parts are what the memory of the new buffer contained. -/
theorem C131_complex_refuted : ¬ ∀ (junk : Nat → Int) (n : Nat) (v : List Int), v.length = 2 * n → 0 < n →
    ∃ s, aSumHost (fun x => if x < 0 then - x else x) junk .complexDouble n v = .ok [s, 0] := by
  intro h
  obtain ⟨s, e⟩ := h (fun _ => 7) 1 [3, -4] rfl (by decide)
  have : aSumHost (fun x => if x < 0 then - x else x) (fun _ => 7) .complexDouble 1 [(3 : Int), -4] = .ok [7, 7] := by decide +kernel
  rw [this] at e
  cases e

/-- **C131** refuted for empty vectors, of every type and whatever memory contains: the sum of no elements is not zero; the function waits for an event that was never created. -/
theorem C131_empty_refuted (abs sqrt : R → R) (junk : Nat → R) (t : Num) (v : DVec) (tmp : Nat) (m : Mem R) (hn : v.size = 0) :
    aSum abs junk t v tmp m = .error .ub ∧ norm2 sqrt junk t v tmp m = .error .ub := by
  cases t <;> simp [aSum, norm2, clAsum, clNrm2, hn, bind_ok]

/-- **C131** `inner_prod` of device vectors of the same size, also empty ones, is Σ a_i b_i. -/
theorem C131_inner_prod (dbg : Bool) {a b : DVec} {m : Mem R} {x y : Nat → R} (hs : b.size = a.size) (ha : ∀ k, k < a.size → (m a.buf)[k]? = some (x k))
    (hb : ∀ k, k < b.size → (m b.buf)[k]? = some (y k)) : innerProd dbg a b m = .ok (∑ k ∈ range a.size, x k * y k) := by
  obtain ⟨t, e, ht⟩ := loop_inv (f := fun i s => do
    let x ← m.read (a.buf, i)
    let y ← m.read (b.buf, i)
    .ok (s + x * y)) (n := a.size) (s := (0 : R)) (fun k s => s = ∑ i ∈ range k, x i * y i) (by simp) (fun k s hk hs' => by
      have e1 : m.read (a.buf, k) = .ok (x k) := by simp only [Mem.read, ha k hk]
      have e2 : m.read (b.buf, k) = .ok (y k) := by simp only [Mem.read, hb k (by omega)]
      exact ⟨s + x k * y k, by simp only [e1, e2, bind_ok], by rw [hs', sum_range_succ]⟩)
  rw [ht] at e
  simp only [innerProd, check_true hs.symm, bind_ok]
  exact e

/-- **C131** `inner_prod` of vectors of different sizes is refused in debug builds. -/
theorem C131_inner_prod_mismatch {a b : DVec} (m : Mem R) (hs : a.size ≠ b.size) : innerProd true a b m = .error .internalLogic := by
  simp only [innerProd, check_dbg_false hs, bind_error]

/-- **C131** `inner_prod` of host vectors. -/
theorem C131_inner_prod_host (dbg : Bool) (junk : Nat → R) (a b : List R) (hs : b.length = a.length) : innerProdHost dbg junk a b = .ok ((a.zipWith (· * ·) b).sum) := by
  rw [← sum_zip a b hs]
  exact C131_inner_prod dbg (a := ⟨a.length, 0⟩) (b := ⟨b.length, 1⟩) (m := hostMem a b 0 junk) (x := fun k => a.getD k 0) (y := fun k => b.getD k 0) hs
    (fun k hk => by simp only at hk; simp [hostMem, List.getD, hk]) (fun k hk => by simp only at hk; simp [hostMem, List.getD, hk])

example : aSumHost (fun x => if x < 0 then - x else x) (fun _ => 9) .float 3 [(3 : Int), -4, 5] = .ok [12] := by decide +kernel
example : innerProdHost true (fun _ => 9) [(3 : Int), -4, 5] [1, 1, 2] = .ok 9 := by decide +kernel

end Ublas.OpenCL
