import Verif.Model.Packed
import Verif.Lemmas.Layout
import Mathlib.Tactic.Ring
import Mathlib.Tactic.Linarith
/-! Lemmas about packed triangular layouts. -/
namespace Ublas

/-- Copy loop lemma: a double loop that writes `src a b` into cell `cell a b` for every `(a,b)` in
`[0,NA) × [0,NB)` selected by `S` ends with all those cells holding their source. -/
theorem double_copy {α : Type} (NA NB N : Nat) (S : Nat → Nat → Bool) (cell : Nat → Nat → Nat)
    (src : Nat → Nat → α) (body : Nat → Nat → List α → M (List α)) (d0 : List α) (h0 : d0.length = N)
    (hlt : ∀ a b, a < NA → b < NB → S a b = true → cell a b < N)
    (hinj : ∀ a b a' b', a < NA → b < NB → a' < NA → b' < NB → S a b = true → S a' b' = true →
      cell a b = cell a' b' → a = a' ∧ b = b')
    (hbody : ∀ a b d, a < NA → b < NB → d.length = N →
      body a b d = .ok (if S a b then d.set (cell a b) (src a b) else d)) :
    ∃ d, loop (fun a d => loop (fun b d => body a b d) NB d) NA d0 = .ok d ∧ d.length = N ∧
      ∀ a b, a < NA → b < NB → S a b = true → d[cell a b]? = some (src a b) := by
  let P : Nat → Nat → List α → Prop := fun A B d => d.length = N ∧
    ∀ a b, a < NA → b < NB → S a b = true → (a < A ∨ (a = A ∧ b < B)) → d[cell a b]? = some (src a b)
  have step : ∀ A B d, A < NA → B < NB → P A B d → ∃ d', body A B d = .ok d' ∧ P A (B + 1) d' := by
    intro A B d hA hB hP
    refine ⟨_, hbody A B d hA hB hP.1, ?_, ?_⟩
    · split <;> simp [hP.1]
    intro a b ha hb hs hdone
    by_cases hcur : a = A ∧ b = B
    · obtain ⟨rfl, rfl⟩ := hcur
      rw [if_pos hs, List.getElem?_set_self]
      rw [hP.1]; exact hlt a b ha hb hs
    · have hd := hP.2 a b ha hb hs (by omega)
      split
      · rename_i hS
        rw [List.getElem?_set_ne, hd]
        intro he
        have := hinj A B a b hA hB ha hb hS hs he
        exact hcur ⟨this.1.symm, this.2.symm⟩
      · exact hd
  obtain ⟨d, hd, hP⟩ := loop_inv (f := fun a d => loop (fun b d => body a b d) NB d) (n := NA) (s := d0)
    (fun A d => P A 0 d) ⟨h0, by intro _ _ _ _ _ h; omega⟩ (by
      intro A d hA hP
      obtain ⟨d', h1, h2⟩ := loop_inv (f := fun b d => body A b d) (n := NB) (s := d)
        (fun B d => P A B d) hP (fun B d hB hP => step A B d hA hB hP)
      refine ⟨d', h1, h2.1, ?_⟩
      intro a b ha hb hs hdone
      exact h2.2 a b ha hb hs (by omega))
  exact ⟨d, hd, hP.1, fun a b ha hb hs => hP.2 a b ha hb hs (Or.inl ha)⟩

/-- `double_copy` for the orientation-indexed loops (`index_M`, `index_m`, `size_M`, `size_m`). -/
theorem double_copy_orient {α : Type} (o : Orient) (r1 r2 N : Nat) (S : Nat → Nat → Bool)
    (cell : Nat → Nat → Nat) (src : Nat → Nat → α) (body : Nat → Nat → List α → M (List α))
    (d0 : List α) (h0 : d0.length = N)
    (hlt : ∀ a b, a < r1 → b < r2 → S a b = true → cell a b < N)
    (hinj : ∀ a b a' b', a < r1 → b < r2 → a' < r1 → b' < r2 → S a b = true → S a' b' = true →
      cell a b = cell a' b' → a = a' ∧ b = b')
    (hbody : ∀ a b d, a < r1 → b < r2 → d.length = N →
      body a b d = .ok (if S a b then d.set (cell a b) (src a b) else d)) :
    ∃ d, loop (fun mj d => loop (fun mn d => body (o.indexM mj mn) (o.indexm mj mn) d) (o.sizem r1 r2) d)
        (o.sizeM r1 r2) d0 = .ok d ∧ d.length = N ∧
      ∀ a b, a < r1 → b < r2 → S a b = true → d[cell a b]? = some (src a b) := by
  cases o
  · exact double_copy r1 r2 N S cell src body d0 h0 hlt hinj hbody
  · obtain ⟨d, h1, h2, h3⟩ := double_copy r2 r1 N (fun a b => S b a) (fun a b => cell b a)
      (fun a b => src b a) (fun a b => body b a) d0 h0
      (fun a b ha hb => hlt b a hb ha)
      (fun a b a' b' ha hb ha' hb' h h' he => (hinj b a b' a' hb ha hb' ha' h h' he).symm)
      (fun a b d ha hb => hbody b a d hb ha)
    exact ⟨d, h1, h2, fun a b ha hb => h3 b a hb ha⟩

namespace Packed
variable {α : Type}

theorem tri_succ (i : Nat) : ((i + 1 + 1) * (i + 1)) / 2 = ((i + 1) * i) / 2 + (i + 1) := by
  rw [show (i + 1 + 1) * (i + 1) = (i + 1) * i + (i + 1) * 2 by ring, Nat.add_mul_div_right _ _ (by omega)]

theorem tri_mono {a b : Nat} (h : a ≤ b) : ((a + 1) * a) / 2 ≤ ((b + 1) * b) / 2 :=
  Nat.div_le_div_right (Nat.mul_le_mul (by omega) h)

theorem colOff_succ {n j : Nat} (h : j < n) : colOff n (j + 1) = colOff n j + (n - j) := by
  unfold colOff
  have : (j + 1) * (2 * n - (j + 1) + 1) = j * (2 * n - j + 1) + (n - j) * 2 := by
    obtain ⟨k, rfl⟩ : ∃ k, n = j + k + 1 := ⟨n - j - 1, by omega⟩
    rw [show 2 * (j + k + 1) - (j + 1) + 1 = j + 2 * k + 2 by omega,
      show 2 * (j + k + 1) - j + 1 = j + 2 * k + 3 by omega, show j + k + 1 - j = k + 1 by omega]
    ring
  rw [this, Nat.add_mul_div_right _ _ (by omega)]

theorem colOff_mono {n a b : Nat} (h : a ≤ b) (hb : b ≤ n) : colOff n a ≤ colOff n b := by
  induction b, h using Nat.le_induction with
  | base => exact Nat.le_refl _
  | succ k hk ih => exact Nat.le_trans (ih (by omega)) (by rw [colOff_succ (by omega)]; omega)

theorem colOff_full (n : Nat) : colOff n n = ((n + 1) * n) / 2 := by
  unfold colOff; rw [show 2 * n - n + 1 = n + 1 by omega, Nat.mul_comm]

theorem le_colOff {n j : Nat} (h : j ≤ n) : j ≤ colOff n j := by
  induction j with
  | zero => omega
  | succ j ih => rw [colOff_succ (by omega)]; have := ih (by omega); omega

/-- Offset of (i,j), j ≤ i, in lower packed storage of dimension n. -/
def lowRaw (o : Orient) (n i j : Nat) : Nat :=
  match o with
  | .row => ((i + 1) * i) / 2 + j
  | .col => i + colOff n j - j

theorem lowRaw_lt (o : Orient) {n i j : Nat} (hj : j ≤ i) (hi : i < n) :
    lowRaw o n i j < ((n + 1) * n) / 2 := by
  cases o
  · have := tri_succ i
    have := tri_mono (show i + 1 ≤ n by omega)
    simp only [lowRaw]; omega
  · have h1 := colOff_succ (show j < n by omega)
    have h2 := colOff_mono (show j + 1 ≤ n by omega) (Nat.le_refl n)
    rw [colOff_full] at h2
    simp only [lowRaw]; omega

theorem lowRaw_inj (o : Orient) {n i j i' j' : Nat} (hj : j ≤ i) (hi : i < n) (hj' : j' ≤ i') (hi' : i' < n)
    (h : lowRaw o n i j = lowRaw o n i' j') : i = i' ∧ j = j' := by
  cases o
  · simp only [lowRaw] at h
    have a1 := tri_succ i
    have a2 := tri_succ i'
    rcases Nat.lt_trichotomy i i' with hlt | rfl | hlt
    · have := tri_mono (show i + 1 ≤ i' by omega); omega
    · exact ⟨rfl, by omega⟩
    · have := tri_mono (show i' + 1 ≤ i by omega); omega
  · simp only [lowRaw] at h
    have a1 := colOff_succ (show j < n by omega)
    have a2 := colOff_succ (show j' < n by omega)
    have b1 := le_colOff (show j ≤ n by omega)
    have b2 := le_colOff (show j' ≤ n by omega)
    rcases Nat.lt_trichotomy j j' with hlt | rfl | hlt
    · have := colOff_mono (show j + 1 ≤ j' by omega) (show j' ≤ n by omega); omega
    · exact ⟨by omega, rfl⟩
    · have := colOff_mono (show j' + 1 ≤ j by omega) (show j ≤ n by omega); omega

/-- Shapes the code accepts in build mode `dbg` (see C08 for the rectangular unit/strict ones). -/
def LFit (dbg : Bool) (k : LKind) (si sj : Nat) : Prop :=
  dbg = true → k = .lower ∨ (si ≠ 0 ∧ sj ≠ 0 ∧ si ≤ sj)

def lcell (o : Orient) : LKind → Nat → Nat → Nat → Nat → Nat
  | .lower, i, si, j, sj => lowRaw o (max si sj) i j
  | .unit, i, si, j, sj => lowRaw o (max (si - 1) (sj - 1)) (i - 1) j
  | .strict, i, si, j, sj => lowRaw o (max (si - 1) (sj - 1)) (i - 1) j

def lpsize : LKind → Nat → Nat → Nat
  | .lower, si, sj => triangularSize si sj
  | _, si, sj => if si = 0 ∨ sj = 0 then 0 else triangularSize (si - 1) (sj - 1)

theorem lpackedSize_eq {dbg : Bool} {k : LKind} {si sj : Nat} (h : LFit dbg k si sj) :
    lpackedSize dbg k si sj = .ok (lpsize k si sj) := by
  cases dbg
  · cases k <;> simp [lpackedSize, lpsize]
  · have := h rfl
    cases k
    · simp [lpackedSize, lpsize]
    all_goals
      have h' : si ≠ 0 ∧ sj ≠ 0 := by simp at this; omega
      simp [lpackedSize, lpsize, h'.1, h'.2]

theorem lelement_eq {dbg : Bool} {o : Orient} {k : LKind} {i si j sj : Nat} (h : LFit dbg k si sj)
    (hi : i < si) (hj : j < sj) (ho : lother k i j = true) :
    lelement dbg o k i si j sj = .ok (lcell o k i si j sj) := by
  cases dbg
  · cases k <;> cases o <;> simp [lelement, lcell, lowerElement, lowRaw]
  · have := h rfl
    cases k
    · simp only [lother, decide_eq_true_eq] at ho
      cases o <;> simp [lelement, lcell, lowerElement, lowRaw, check_true hi, check_true hj, check_true ho]
    all_goals
      simp only [lother, decide_eq_true_eq] at ho
      have h' : si ≠ 0 ∧ sj ≠ 0 ∧ i ≠ 0 := by simp at this; omega
      have h1 : i - 1 < si - 1 := by omega
      have h2 : j < sj - 1 := by simp at this; omega
      have h3 : j ≤ i - 1 := by omega
      cases o <;> simp [lelement, lcell, lowerElement, lowRaw, check_true h', check_true h1, check_true h2,
        check_true h3]

theorem lcell_lt {o : Orient} {k : LKind} {i si j sj : Nat}
    (hi : i < si) (hj : j < sj) (ho : lother k i j = true) :
    lcell o k i si j sj < lpsize k si sj := by
  cases k <;> simp only [lother, decide_eq_true_eq] at ho <;> simp only [lcell, lpsize, triangularSize]
  · exact lowRaw_lt o ho (by omega)
  all_goals
    rw [if_neg (by omega)]
    exact lowRaw_lt o (by omega) (by omega)

theorem lcell_inj {o : Orient} {k : LKind} {i si j sj i' j' : Nat}
    (hi : i < si) (hj : j < sj) (ho : lother k i j = true)
    (hi' : i' < si) (hj' : j' < sj) (ho' : lother k i' j' = true)
    (h : lcell o k i si j sj = lcell o k i' si j' sj) : i = i' ∧ j = j' := by
  cases k <;> simp only [lother, decide_eq_true_eq] at ho ho' <;> simp only [lcell] at h
  · exact lowRaw_inj o ho (by omega) ho' (by omega) h
  all_goals
    have := lowRaw_inj o (by omega) (by omega) (by omega) (by omega) h
    omega

/-- Shapes accepted by the code: everything in release; in debug every shape for lower/upper, and for the
unit/strict kinds non-empty shapes that are not taller (lower) / wider (upper) than square. -/
def Fit (dbg : Bool) (t : Tri) (si sj : Nat) : Prop :=
  if t.upper then LFit dbg t.kind sj si else LFit dbg t.kind si sj

def cellOf (t : Tri) (o : Orient) (i si j sj : Nat) : Nat :=
  if t.upper then lcell o.transposed t.kind j sj i si else lcell o t.kind i si j sj

def psize (t : Tri) (si sj : Nat) : Nat :=
  if t.upper then lpsize t.kind sj si else lpsize t.kind si sj

theorem packedSize_eq {dbg : Bool} {t : Tri} {si sj : Nat} (h : Fit dbg t si sj) :
    packedSize dbg t si sj = .ok (psize t si sj) := by
  unfold packedSize psize Fit at *
  split <;> rename_i hu <;> simp only [hu, if_true, if_false, Bool.false_eq_true] at h <;> exact lpackedSize_eq h

theorem element_eq {dbg : Bool} {o : Orient} {t : Tri} {i si j sj : Nat} (h : Fit dbg t si sj)
    (hi : i < si) (hj : j < sj) (ho : other t i j = true) :
    element dbg t o i si j sj = .ok (cellOf t o i si j sj) := by
  unfold element cellOf Fit other at *
  split <;> rename_i hu <;> simp only [hu, if_true, if_false, Bool.false_eq_true] at h ho
  · exact lelement_eq h hj hi ho
  · exact lelement_eq h hi hj ho

theorem cellOf_lt {o : Orient} {t : Tri} {i si j sj : Nat}
    (hi : i < si) (hj : j < sj) (ho : other t i j = true) : cellOf t o i si j sj < psize t si sj := by
  unfold cellOf psize other at *
  split <;> rename_i hu <;> simp only [hu, if_true, if_false, Bool.false_eq_true] at ho
  · exact lcell_lt hj hi ho
  · exact lcell_lt hi hj ho

theorem cellOf_inj {o : Orient} {t : Tri} {i si j sj i' j' : Nat}
    (hi : i < si) (hj : j < sj) (ho : other t i j = true)
    (hi' : i' < si) (hj' : j' < sj) (ho' : other t i' j' = true)
    (h : cellOf t o i si j sj = cellOf t o i' si j' sj) : i = i' ∧ j = j' := by
  unfold cellOf other at *
  split at h <;> rename_i hu <;> simp only [hu, if_true, if_false, Bool.false_eq_true] at ho ho'
  · exact (lcell_inj hj hi ho hj' hi' ho' h).symm
  · exact lcell_inj hi hj ho hi' hj' ho' h

theorem resizeLoop_spec (dbg : Bool) (t : Tri) (o : Orient) (ms1 ms2 : Nat) (md : List α) (s1 s2 : Nat)
    (td : List α) (hf : Fit dbg t ms1 ms2) (hf' : Fit dbg t s1 s2) (hm : md.length = psize t ms1 ms2)
    (ht : td.length = psize t s1 s2) :
    ∃ d, resizeLoop dbg t o ms1 ms2 md s1 s2 td = .ok d ∧ d.length = psize t s1 s2 ∧
      ∀ a b, a < min s1 ms1 → b < min s2 ms2 → other t a b = true →
        d[cellOf t o a s1 b s2]? = md[cellOf t o a ms1 b ms2]? := by
  by_cases hne : 0 < psize t ms1 ms2
  · obtain ⟨x, hx⟩ : ∃ x, md[0]? = some x := by
      cases md with
      | nil => simp at hm; omega
      | cons x _ => exact ⟨x, rfl⟩
    have := double_copy_orient o (min s1 ms1) (min s2 ms2) (psize t s1 s2) (other t)
      (fun a b => cellOf t o a s1 b s2) (fun a b => (md[cellOf t o a ms1 b ms2]?).getD x)
      (fun i1 i2 d => if other t i1 i2 then do
        let kt ← element dbg t o i1 s1 i2 s2
        let km ← element dbg t o i1 ms1 i2 ms2
        let v ← rd dbg md km
        wr dbg d kt v
      else return d) td ht
      (fun a b ha hb h => cellOf_lt (by omega) (by omega) h)
      (fun a b a' b' ha hb ha' hb' h h' he =>
        cellOf_inj (by omega) (by omega) h (by omega) (by omega) h' he)
      (by
        intro a b d ha hb hd
        by_cases h : other t a b = true
        · have k1 : cellOf t o a ms1 b ms2 < md.length := by
            rw [hm]; exact cellOf_lt (by omega) (by omega) h
          have k2 : cellOf t o a s1 b s2 < d.length := by rw [hd]; exact cellOf_lt (by omega) (by omega) h
          simp only [h, if_true]
          rw [element_eq hf' (by omega) (by omega) h, element_eq hf (by omega) (by omega) h]
          simp [rd_ok k1, wr_ok k2, k1]
        · simp [h])
    obtain ⟨d, h1, h2, h3⟩ := this
    refine ⟨d, h1, h2, ?_⟩
    intro a b ha hb h
    have k1 : cellOf t o a ms1 b ms2 < md.length := by
      rw [hm]; exact cellOf_lt (by omega) (by omega) h
    rw [h3 a b ha hb h]; simp [k1]
  · have hno : ∀ a b, a < min s1 ms1 → b < min s2 ms2 → ¬ other t a b = true := by
      intro a b ha hb h
      have := cellOf_lt (o := o) (si := ms1) (sj := ms2) (by omega) (by omega) h
      omega
    have key1 : ∀ (n2 : Nat) (f : Nat → List α → M (List α)) (d : List α),
        (∀ b d, b < n2 → f b d = .ok d) → loop f n2 d = .ok d := by
      intro n2 f d hfb
      obtain ⟨x, e, hx⟩ := loop_inv (f := f) (n := n2) (s := d) (fun _ x => x = d) rfl
        (by intro b y hb hy; subst hy; exact ⟨_, hfb b _ hb, rfl⟩)
      rw [e, hx]
    have key : ∀ (n1 n2 : Nat) (f : Nat → Nat → List α → M (List α)) (d : List α),
        (∀ a b d, a < n1 → b < n2 → f a b d = .ok d) →
        loop (fun a d => loop (fun b d => f a b d) n2 d) n1 d = .ok d :=
      fun n1 n2 f d hfb => key1 n1 _ d (fun a d ha => key1 n2 _ d (fun b d hb => hfb a b d ha hb))
    refine ⟨td, ?_, ht, fun a b ha hb h => absurd h (hno a b ha hb)⟩
    unfold resizeLoop
    apply key
    intro a b d ha hb
    have : ¬ other t (o.indexM a b) (o.indexm a b) = true := by
      apply hno <;> cases o <;> simp_all [Orient.indexM, Orient.indexm, Orient.sizeM, Orient.sizem]
    simp [this]

end Packed
end Ublas
