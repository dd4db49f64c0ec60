import Verif.Props.IO
import Mathlib.Tactic.IntervalCases
/-! # C58: what is written is read back -/
namespace Ublas.IO
variable {R : Type}

/-! ## Decimal numbers -/

theorem digit_spec : ∀ k, k < 10 → (Char.ofNat (48 + k)).toNat = 48 + k ∧ isDigit (Char.ofNat (48 + k)) = true ∧ isWs (Char.ofNat (48 + k)) = false ∧ Char.ofNat (48 + k) ≠ '-' ∧ Char.ofNat (48 + k) ≠ '+' := by
  decide

def value (ds : List Char) : Nat := ds.foldl (fun a c => 10 * a + (c.toNat - 48)) 0

theorem digits_spec (n : Nat) : value (digits n) = n ∧ (∀ c ∈ digits n, isDigit c = true) ∧ ∃ k r, k < 10 ∧ digits n = Char.ofNat (48 + k) :: r := by
  induction n using Nat.strongRecOn with
  | ind n ih =>
    rw [digits.eq_def]
    by_cases h : n < 10
    · rw [dif_pos h]
      obtain ⟨h1, h2, -⟩ := digit_spec n h
      exact ⟨by simp [value, h1], by simp [h2], n, [], h, rfl⟩
    · rw [dif_neg h]
      obtain ⟨h1, h2, k, r, hk, e⟩ := ih (n / 10) (by omega)
      obtain ⟨g1, g2, -⟩ := digit_spec (n % 10) (by omega)
      refine ⟨?_, ?_, k, r ++ [Char.ofNat (48 + n % 10)], hk, by rw [e]; rfl⟩
      · unfold value at h1 ⊢
        rw [List.foldl_append, h1]
        simp only [List.foldl_cons, List.foldl_nil, g1]
        omega
      · intro c hc
        rw [List.mem_append, List.mem_singleton] at hc
        rcases hc with hc | rfl
        · exact h2 c hc
        · exact g2

/-- A size is read back. -/
theorem readSize_digits (n : Nat) (hn : n < 2 ^ 64) (c : Char) (hc : isDigit c = false) (rest : List Char) : readSize (digits n ++ c :: rest) = some (n, c :: rest) := by
  obtain ⟨h1, h2, k, r, hk, e⟩ := digits_spec n
  obtain ⟨g1, g2, g3, g4, g5⟩ := digit_spec k hk
  have hsk : skipWs (digits n ++ c :: rest) = digits n ++ c :: rest := by
    rw [e]; simp [skipWs, List.dropWhile_cons, g3]
  have htk : (digits n ++ c :: rest).takeWhile isDigit = digits n := by
    rw [List.takeWhile_append_of_pos h2]
    simp [List.takeWhile_cons, hc]
  have hdr : (digits n ++ c :: rest).dropWhile isDigit = c :: rest := by
    rw [List.dropWhile_append_of_pos h2]
    simp [List.dropWhile_cons, hc]
  have hm : sign (digits n ++ c :: rest) = (false, digits n ++ c :: rest) := by
    rw [e, List.cons_append]
    simp only [sign, if_neg g4, if_neg g5]
  have hv : List.foldl (fun a c => 10 * a + (c.toNat - 48)) 0 (digits n) = n := h1
  unfold readSize
  simp only [hsk, hm, htk, hv, hdr]
  rw [if_neg (by
    rintro (h | h)
    · rw [e] at h; simp at h
    · omega)]
  simp

/-- An element type: unsigned numbers up to 2^64 - 1. -/
def natIO : ElemIO (Fin (2 ^ 64)) where
  print n := digits n
  read b := (readSize b).bind fun p => if h : p.1 < 2 ^ 64 then some (⟨p.1, h⟩, p.2) else none

theorem natIO_roundTrips : natIO.RoundTrips := by
  intro x c rest hc
  have : isDigit c = false := by rcases hc with rfl | rfl <;> decide
  simp [natIO, readSize_digits x x.isLt c this rest]

/-! ## Lists -/

/-- `txt` is how these tokens are written. -/
def Printed (E : ElemIO R) (ts : List (Tok R)) (txt : List Char) : Prop := ∀ c rest, c = ',' ∨ c = ')' → Scan E ts (txt ++ c :: rest) (c :: rest)

theorem scan_ch {E : ElemIO R} {c : Char} (hc : isWs c = false) {ts : List (Tok R)} {b rest : List Char} (h : Scan E ts b rest) : Scan E (.ch c :: ts) (c :: b) rest :=
  ⟨b, by simp [skipWs, List.dropWhile_cons, hc], h⟩

theorem printed_tail {E : ElemIO R} : ∀ {tss : List (List (Tok R))} {txts : List (List Char)}, List.Forall₂ (Printed E) tss txts → ∀ rest, Scan E (tail tss false) (commas txts ++ ')' :: rest) rest
  | _, _, .nil, rest => by rw [tail_nil]; exact scan_ch (by decide) rfl
  | _, _, .cons h .nil, rest => by
    rw [tail_one, scan_append]
    exact ⟨_, h ')' rest (Or.inr rfl), scan_ch (by decide) rfl⟩
  | _, _, .cons h (.cons h2 hr), rest => by
    rw [tail_cons, scan_append]
    simp only [commas, List.append_assoc, List.cons_append]
    exact ⟨_, h ',' _ (Or.inl rfl), scan_ch (by decide) (printed_tail (.cons h2 hr) rest)⟩

theorem printed_list {E : ElemIO R} {tss : List (List (Tok R))} {txts : List (List Char)} (h : List.Forall₂ (Printed E) tss txts) (rest : List Char) :
    Scan E (list tss false) ('(' :: commas txts ++ ')' :: rest) rest := scan_ch (by decide) (printed_tail h rest)

theorem printed_elems {E : ElemIO R} (hE : E.RoundTrips) (xs : List R) : List.Forall₂ (Printed E) (xs.map fun x => [.elem x]) (xs.map E.print) := by
  induction xs with
  | nil => exact .nil
  | cons x xs ih => exact .cons (fun c rest hc => ⟨_, hE x c rest hc, rfl⟩) ih

theorem scan_size {E : ElemIO R} {n : Nat} (hn : n < 2 ^ 64) {c : Char} (hc : isDigit c = false) {ts : List (Tok R)} {b rest : List Char} (h : Scan E ts (c :: b) rest) :
    Scan E (.size n :: ts) (digits n ++ c :: b) rest := ⟨_, readSize_digits n hn c hc b, h⟩

/-- What `operator <<` writes for a vector is its text. -/
theorem writeVector_text (E : ElemIO R) (hE : E.RoundTrips) (v : List R) (hv : v.length < 2 ^ 64) (rest : List Char) : Scan E (vectorText v false) (writeVector E v ++ rest) rest := by
  unfold writeVector vectorText
  simp only [List.cons_append, List.append_assoc, List.nil_append]
  exact scan_ch (by decide) (scan_size hv (by decide) (scan_ch (by decide) (printed_list (printed_elems hE v) rest)))

/-- What `operator <<` writes for a matrix is its text. -/
theorem writeMatrix_text (E : ElemIO R) (hE : E.RoundTrips) (c : Nat) (rows : List (List R)) (hr : rows.length < 2 ^ 64) (hc : c < 2 ^ 64) (rest : List Char) :
    Scan E (matrixText c rows (List.replicate rows.length false) false) (writeMatrix E c rows ++ rest) rest := by
  unfold writeMatrix matrixText
  simp only [List.cons_append, List.append_assoc, List.nil_append]
  refine scan_ch (by decide) (scan_size hr (by decide) (scan_ch (by decide) (scan_size hc (by decide) (scan_ch (by decide) ?_))))
  refine printed_list ?_ rest
  clear hr
  induction rows with
  | nil => exact .nil
  | cons row rows ih =>
    refine .cons (fun ch rest' _ => ?_) ih
    simp only [List.cons_append, List.append_assoc, List.nil_append]
    exact printed_list (printed_elems hE row) (ch :: rest')

/-! ## Round trips -/

/-- **C58** (vectors).  Reading back what was written gives the same vector, and stops right after it. -/
theorem C58_vector_roundtrip (dbg : Bool) (E : ElemIO R) (hE : E.RoundTrips) (cap : Nat) (junk : R) (v u : List R) (hv : v.length < 2 ^ 64) (hcap : v.length ≤ cap) (rest : List Char) :
    readVector dbg E cap junk u ⟨writeVector E v ++ rest, true⟩ = .ok (v, ⟨rest, true⟩) :=
  (C58_vector_accepts ..).2 ⟨hcap, false, by simp, writeVector_text E hE v hv rest⟩

theorem rowsOf_length (r c : Nat) (f : Nat × Nat → R) : (rowsOf r c f).length = r := by simp [rowsOf]

/-- **C58** (dense matrices).  Reading back what was written, into a matrix of any size and either orientation, gives a matrix of the same size with the same elements. -/
theorem C58_matrix_roundtrip (dbg : Bool) (E : ElemIO R) (hE : E.RoundTrips) (cap : Nat) (junk : Nat → R) (o : Orient) (m : Dense R) (r c : Nat) (f : Nat × Nat → R) (hr : r < 2 ^ 64) (hc : c < 2 ^ 64)
    (h64 : r * c < 2 ^ 64) (hcap : r * c ≤ cap) (rest : List Char) :
    ∃ x, readDense dbg E cap junk o m ⟨writeMatrix E c (rowsOf r c f) ++ rest, true⟩ = .ok (x, ⟨rest, true⟩) ∧ Solve.DHolds dbg o r c x f := by
  have h := writeMatrix_text E hE c (rowsOf r c f) (by rwa [rowsOf_length]) hc rest
  rw [rowsOf_length] at h
  exact C58_matrix_accepts dbg E cap junk o m r c hcap h64 f (List.replicate r false) false (by simp) (by simp) (by simp) _ rest h

/-- **C58** (symmetric matrices).  Reading back what was written gives a symmetric matrix of the same size with the same elements. -/
theorem C58_symmetric_roundtrip [DecidableEq R] (dbg : Bool) (E : ElemIO R) (hE : E.RoundTrips) (cap : Nat) (junk : Nat → R) {t : Tri} (hk : t.kind = .lower) (o : Orient) (m : Packed.SMat R) (n : Nat)
    (f : Nat × Nat → R) (hf : ∀ i j, i < n → j < n → f (i, j) = f (j, i)) (hn : n < 2 ^ 64) (hcap : Packed.psize t n n ≤ cap) (rest : List Char) :
    ∃ x, readSMat dbg E cap junk t o m ⟨writeMatrix E n (rowsOf n n f) ++ rest, true⟩ = .ok (x, ⟨rest, true⟩) ∧ x.size = n ∧ ∀ i j, i < n → j < n → x.get dbg t o i j = .ok (f (i, j)) := by
  have h := writeMatrix_text E hE n (rowsOf n n f) (by rwa [rowsOf_length]) hn rest
  rw [rowsOf_length] at h
  exact C58_symmetric_accepts dbg E cap junk hk o m n hcap f hf (List.replicate n false) false (by simp) (by simp) _ rest h

-- Non-vacuity
example : writeVector natIO [12, 3, 405] = "[3](12,3,405)".toList := by decide +kernel
example : writeMatrix natIO 2 (rowsOf 3 2 fun p => Fin.ofNat _ (10 * p.1 + p.2)) = "[3,2]((0,1),(10,11),(20,21))".toList := by decide +kernel
example : readVector true natIO 1000 0 [7] ⟨" [ 3 ] ( 12 , 3 ,405)x".toList, true⟩ = .ok ([12, 3, 405], ⟨['x'], true⟩) := by decide +kernel
example : readVector true natIO 1000 0 [7] ⟨"[3](12,3)".toList, true⟩ = .ok ([7], ⟨[')'], false⟩) := by decide +kernel
example : readDense true natIO 1000 (fun _ => 0) .col ⟨0, 0, []⟩ ⟨"[2,2]((1,2),(3,4))".toList, true⟩ = .ok (⟨2, 2, [1, 3, 2, 4]⟩, ⟨[], true⟩) := by decide +kernel
example : readDense true natIO 1000 (fun _ => 0) .col ⟨0, 0, []⟩ ⟨"[2,2]((1,2),(3,4)".toList, true⟩ = .ok (⟨0, 0, []⟩, ⟨[], false⟩) := by decide +kernel
example : readSMat true natIO 1000 (fun _ => 0) ⟨.lower, false⟩ .row ⟨0, []⟩ ⟨"[2,2]((1,2),(2,4))".toList, true⟩ = .ok (⟨2, [1, 2, 4]⟩, ⟨[], true⟩) := by decide +kernel
example : readSMat true natIO 1000 (fun _ => 0) ⟨.lower, false⟩ .row ⟨0, []⟩ ⟨"[2,2]((1,2),(3,4))".toList, true⟩ = .ok (⟨0, []⟩, ⟨['4', ')', ')'], false⟩) := by decide +kernel

/-! ## What is not rejected -/

/-- **C58** refuted: a comma after the last element, which the documented format does not have, is accepted, in vectors, rows and matrices. -/
theorem C58_trailing_comma_refuted :
    readVector true natIO 1000 0 [] ⟨"[1](5,)".toList, true⟩ = .ok ([5], ⟨[], true⟩) ∧
    readDense true natIO 1000 (fun _ => 0) .row ⟨0, 0, []⟩ ⟨"[1,2]((5,6,),)".toList, true⟩ = .ok (⟨1, 2, [5, 6]⟩, ⟨[], true⟩) ∧
    readSMat true natIO 1000 (fun _ => 0) ⟨.lower, false⟩ .row ⟨0, []⟩ ⟨"[1,1]((5,),)".toList, true⟩ = .ok (⟨1, [5]⟩, ⟨[], true⟩) := by
  decide +kernel

/-- **C58** refuted: a size that cannot be allocated throws instead of setting the fail state; a negative size is taken modulo 2^64. -/
theorem C58_alloc_refuted (dbg : Bool) (cap : Nat) (h : cap < 2 ^ 64 - 1) (v : List (Fin (2 ^ 64))) : readVector dbg natIO cap 0 v ⟨"[-1]x".toList, true⟩ = .error .stdException := by
  have e : readSize "-1]x".toList = some (2 ^ 64 - 1, "]x".toList) := by decide +kernel
  have h1 : skipWs "[-1]x".toList = '[' :: "-1]x".toList := by decide +kernel
  have h2 : skipWs "]x".toList = ']' :: ['x'] := by decide +kernel
  simp only [readVector, differs_eq h1, Bool.false_eq_true, if_false, extract_ok e, differs_eq h2, if_true]
  rw [if_pos h]

/-- **C58** refuted: in release mode a text that announces 2^32 x 2^32 elements makes the program write outside its memory. -/
theorem C58_overflow_refuted (cap : Nat) (junk : Nat → Fin (2 ^ 64)) (o : Orient) (m : Dense (Fin (2 ^ 64))) :
    readDense false natIO cap junk o m ⟨"[4294967296,4294967296]((5".toList, true⟩ = .error .ub := by
  have hs : readSizes false ⟨"[4294967296,4294967296]((5".toList, true⟩ = (some (4294967296, 4294967296), ⟨"((5".toList, true⟩) := by decide +kernel
  have hm : makeDense false cap junk o 4294967296 4294967296 = .ok ⟨4294967296, 4294967296, []⟩ := by
    unfold makeDense
    cases o <;> simp
  have h1 : skipWs "((5".toList = '(' :: "(5".toList := by decide +kernel
  have h2 : skipWs "(5".toList = '(' :: "5".toList := by decide +kernel
  have h3 : natIO.read "5".toList = some (5, []) := by decide +kernel
  have h4 : Dense.set false o (⟨4294967296, 4294967296, []⟩ : Dense (Fin (2 ^ 64))) 0 0 5 = .error .ub := by
    cases o <;> simp [Dense.set, Orient.element, wr, check]
  have hi : readInto natIO (fun j a (x : Dense (Fin (2 ^ 64))) => x.set false o 0 j a) 0 ⟨4294967296, 4294967296, []⟩ ⟨"5".toList, true⟩ = .error .ub := by
    simp only [readInto, extract_ok h3, h4, bind_error]
  have hl : itemsLoop 4294967296 (readInto natIO fun j a (x : Dense (Fin (2 ^ 64))) => x.set false o 0 j a) (4294967295 + 1) 0 ⟨4294967296, 4294967296, []⟩ ⟨"5".toList, true⟩ = .error .ub := by
    rw [itemsLoop, hi, bind_error]
  have hr : readRow natIO 4294967296 (fun i j a (x : Dense (Fin (2 ^ 64))) => x.set false o i j a) 0 ⟨4294967296, 4294967296, []⟩ ⟨"(5".toList, true⟩ = .error .ub := by
    simp only [readRow, differs_eq h2, Bool.false_eq_true, if_false]
    rw [show (4294967296 : Nat) = 4294967295 + 1 from rfl] at hl ⊢
    rw [hl, bind_error]
  have hb : itemsLoop 4294967296 (readRow natIO 4294967296 fun i j a (x : Dense (Fin (2 ^ 64))) => x.set false o i j a) (4294967295 + 1) 0 ⟨4294967296, 4294967296, []⟩ ⟨"(5".toList, true⟩ = .error .ub := by
    rw [itemsLoop, hr, bind_error]
  simp only [readDense, readMatrix, hs, hm, bind_ok, readBody, differs_eq h1, Bool.false_eq_true, if_false, if_true]
  rw [show (4294967296 : Nat) = 4294967295 + 1 from rfl] at hb ⊢
  rw [hb]
  rfl

end Ublas.IO
