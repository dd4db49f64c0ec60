import Verif.Model.Constant
import Verif.Model.VectorTargets
import Verif.Props.Prod
import Verif.Props.AssignOps
import Verif.Props.MatrixAssign
import Mathlib.Tactic.Tauto
/-! # C76: the constant containers stand for the vectors and matrices they name, by element access and by iteration, after any resize -/
namespace Ublas
variable {R : Type} [Semiring R]

/-! ## Loops -/

theorem walkChk_ok {β : Type} {dbg : Bool} {limit : Nat} {get : Nat → M β} {f : Nat → β} : ∀ (fuel b e : Nat), b ≤ e → e - b ≤ fuel →
    (∀ k, b ≤ k → k < e → get k = .ok (f k) ∧ (dbg = true → k < limit)) →
    walkChk dbg limit get fuel b e = .ok ((List.range' b (e - b)).map fun k => (k, f k)) := by
  intro fuel
  induction fuel with
  | zero => intro b e h1 h2 _; have : b = e := by omega
            subst this; simp [walkChk]
  | succ n ih =>
    intro b e h1 h2 h
    rw [walkChk]
    by_cases hb : b = e
    · subst hb; simp
    · rw [if_neg hb]
      obtain ⟨g1, g2⟩ := h b (Nat.le_refl _) (by omega)
      have hc : check dbg (b < limit) .badIndex = .ok () := by
        cases dbg with
        | true => exact check_true (g2 rfl)
        | false => exact check_release
      rw [g1, bind_ok, hc, bind_ok, ih (b + 1) e (by omega) (by omega) (fun k a1 a2 => h k (by omega) a2), bind_ok, pure_eq_ok]
      congr 1
      obtain ⟨d, hd⟩ : ∃ d, e - b = d + 1 := ⟨e - b - 1, by omega⟩
      have hd' : e - (b + 1) = d := by omega
      rw [hd, hd']
      simp [List.range'_succ]

/-- The loop stops with `bad_index` as soon as it has to step from a position the check refuses. -/
theorem walkChk_stop {β : Type} {limit : Nat} {get : Nat → M β} {f : Nat → β} : ∀ (fuel b e : Nat), b ≤ limit → limit < e → limit - b < fuel →
    (∀ k, b ≤ k → k ≤ limit → get k = .ok (f k)) → walkChk true limit get fuel b e = .error .badIndex := by
  intro fuel
  induction fuel with
  | zero => intro b e _ _ h; omega
  | succ n ih =>
    intro b e h1 h2 h3 h
    rw [walkChk, if_neg (by omega), h b (Nat.le_refl _) h1, bind_ok]
    by_cases hb : b < limit
    · rw [check_true hb, bind_ok, ih (b + 1) e (by omega) h2 (by omega) (fun k a1 a2 => h k (by omega) a2)]
      rfl
    · rw [check_dbg_false hb]; rfl

/-! ## Vectors -/

/-- **C76**, zero_vector. -/
theorem C76_zero_vector (v : ZeroVec) (n : Nat) : ∃ s : Seq R, s.Of n .sparse (v.resize n).els (v.resize n).at_ ∧ s.Presents n (fun _ => 0) :=
  ⟨⟨n, .sparse, [], (v.resize n).at_⟩, ⟨rfl, rfl, rfl, rfl⟩,
    { size := rfl, at_ := fun _ _ => rfl, vals := by simp, sorted := by simp, skipped := fun _ _ _ => rfl, packed := fun h => absurd rfl h, dense := fun h => by cases h }⟩

/-- **C76**, scalar_vector. -/
theorem C76_scalar_vector (dbg : Bool) (v : ScalarVec R) (n : Nat) :
    ∃ s : Seq R, s.Of n .dense ((v.resize n).els dbg) (v.resize n).at_ ∧ s.Presents n (fun _ => v.value) := by
  have hg : ∀ k, k < n → (do check dbg (k < n) .badIndex; (v.resize n).at_ k : M R) = .ok v.value := fun k hk => by
    rw [check_true hk]; rfl
  obtain ⟨L, e1, e2, e3⟩ := walkIdx_ok (get := fun k => (do check dbg (k < n) .badIndex; (v.resize n).at_ k : M R)) n 0 n (Nat.zero_le _) (by omega)
    (fun k _ hk => ⟨_, hg k hk⟩)
  refine ⟨⟨n, .dense, L, (v.resize n).at_⟩, ⟨rfl, rfl, e1, rfl⟩, Seq.presents_range e2 (fun k x => ?_) (fun _ _ h => h) (fun i _ => rfl) (fun i h1 h2 => by omega) (fun _ => ⟨rfl, rfl⟩)⟩
  rw [e3]
  constructor
  · rintro ⟨a, b, c⟩; rw [hg k b] at c; exact ⟨a, b, by rw [← c]; rfl⟩
  · rintro ⟨a, b, c⟩; exact ⟨a, b, by rw [hg k b, ← c]; rfl⟩

theorem unitVec_seq {n k : Nat} {E : List (Nat × R)} {get : Nat → M R} (hg : ∀ i, i < n → get i = .ok (if i = k then 1 else 0)) (hE : E = if k < n then [(k, 1)] else []) :
    (⟨n, .sparse, E, get⟩ : Seq R).Presents n (fun i => if i = k then 1 else 0) where
  size := rfl
  at_ := hg
  vals p hp := by
    subst hE
    by_cases h : k < n
    · simp only [if_pos h, List.mem_singleton] at hp; subst hp; exact ⟨h, by simp⟩
    · simp [if_neg h] at hp
  sorted := by subst hE; by_cases h : k < n <;> simp [h]
  skipped i hi hm := by
    by_cases hk : i = k
    · subst hk; exfalso; apply hm; show i ∈ E.map (·.1); rw [hE, if_pos hi]; simp
    · exact if_neg hk
  packed h := absurd rfl h
  dense h := by cases h

/-- **C76**, unit_vector: after any resize, element access and the `find`-based loops of expressions present the vector with a one at `index ()` (if that lies
inside) and zeros elsewhere; the direct loop `begin ()` … `end ()` does so when the index lies inside. -/
theorem C76_unit_vector_partial (dbg : Bool) (v : UnitVec) (n : Nat) :
    (∃ s : Seq R, s.Of n .sparse ((v.resize n).byFind dbg) (v.resize n).at_ ∧ s.Presents n (fun i => if i = v.index then 1 else 0)) ∧
    (v.index < n → ∃ s : Seq R, s.Of n .sparse ((v.resize n).direct dbg) (v.resize n).at_ ∧ s.Presents n (fun i => if i = v.index then 1 else 0)) := by
  constructor
  · refine ⟨⟨n, .sparse, if v.index < n then [(v.index, 1)] else [], (v.resize n).at_⟩, ⟨rfl, rfl, ?_, rfl⟩, unitVec_seq (fun _ _ => rfl) rfl⟩
    by_cases h : v.index < n
    · have h' : ¬ n ≤ v.index := by omega
      simp [UnitVec.byFind, UnitVec.walk, UnitVec.find, UnitVec.resize, h, h']
    · have h' : n ≤ v.index := by omega
      simp [UnitVec.byFind, UnitVec.walk, UnitVec.find, UnitVec.resize, h, h']
  · intro h
    refine ⟨⟨n, .sparse, [(v.index, 1)], (v.resize n).at_⟩, ⟨rfl, rfl, ?_, rfl⟩, unitVec_seq (fun _ _ => rfl) (by rw [if_pos h])⟩
    simp [UnitVec.direct, UnitVec.walk, UnitVec.resize]

/-- The full claim: the direct loop presents the vector for every index. -/
def C76_unit_vector_claim (R : Type) [Semiring R] : Prop :=
  ∀ (dbg : Bool) (v : UnitVec) (n : Nat), ∃ s : Seq R, s.Of n .sparse ((v.resize n).direct dbg) (v.resize n).at_ ∧ s.Presents n (fun i => if i = v.index then 1 else 0)

/-- It fails whenever a resize leaves the index outside: the loop still visits the position `index ()`, which is not an index of the vector. -/
theorem C76_unit_vector_visits_outside (dbg : Bool) (v : UnitVec) (n : Nat) : (v.resize n).direct dbg = (.ok [(v.index, 1)] : M (List (Nat × R))) ∧ (v.resize n).size = n := by
  refine ⟨?_, rfl⟩
  simp [UnitVec.direct, UnitVec.walk, UnitVec.resize]

theorem C76_unit_vector_refuted : ¬ C76_unit_vector_claim R := by
  intro h
  obtain ⟨s, ⟨_, _, h1, _⟩, h2⟩ := h true ⟨5, 3⟩ 2
  rw [(C76_unit_vector_visits_outside true _ 2).1] at h1
  have := (h2.vals (3, 1) (by rw [← Except.ok.inj h1]; simp)).1
  omega

/-- Consequence: `vector v (u)` for a unit_vector `u` of size 2 whose index 3 was left outside by `resize (2)`: a debug build throws `bad_index`, a release build
writes outside the array. -/
theorem C76_unit_vector_assigned (mode : ProdFn.Mode) (junk : Nat → Int) (s : Seq Int) (hs : ∀ dbg, s.Of 2 .sparse ((UnitVec.resize ⟨5, 3⟩ 2).direct dbg) (UnitVec.resize ⟨5, 3⟩ 2).at_) :
    VAssign.vectorFrom true mode junk s = .error .badIndex ∧ VAssign.vectorFrom false mode junk s = .error .ub := by
  obtain ⟨h1, h2, h3, h4⟩ := hs true
  rw [(C76_unit_vector_visits_outside true _ 2).1] at h3
  obtain ⟨sz, cat, els, at_⟩ := s
  simp only at h1 h2 h3 h4
  subst h1 h2 h4
  have h3 := Except.ok.inj h3
  subst h3
  constructor <;> (cases mode <;> rfl)

/-- The condition is met: there is such an operand. -/
example : ∃ s : Seq Int, ∀ dbg, s.Of 2 .sparse ((UnitVec.resize ⟨5, 3⟩ 2).direct dbg) (UnitVec.resize ⟨5, 3⟩ 2).at_ :=
  ⟨⟨2, .sparse, [(3, 1)], (UnitVec.resize ⟨5, 3⟩ 2).at_⟩, fun dbg => ⟨rfl, rfl, (C76_unit_vector_visits_outside dbg _ 2).1, rfl⟩⟩

/-! ## Matrices -/

/-- A matrix expression whose outer loop `lines` and element access are given, in (major, minor) order. -/
def MExp.Of (e : MExp R) (sizeM sizem : Nat) (cat : Cat) (lines : M (List (Nat × List (Nat × R)))) (get : Nat → Nat → M R) : Prop :=
  e.sizeM = sizeM ∧ e.sizem = sizem ∧ e.cat = cat ∧ lines = .ok e.lines ∧ e.at_ = get

/-- **C76**, zero_matrix (row-wise and column-wise). -/
theorem C76_zero_matrix (m : ZeroMat) (r c : Nat) :
    (∃ e : MExp R, e.Of r c .sparse (m.resize r c).lines (m.resize r c).at_ ∧ e.Presents r c (fun _ _ => 0)) ∧
    (∃ e : MExp R, e.Of c r .sparse (m.resize r c).lines (fun j i => (m.resize r c).at_ i j) ∧ e.Presents c r (fun _ _ => 0)) :=
  ⟨⟨⟨r, c, .sparse, [], (m.resize r c).at_⟩, ⟨rfl, rfl, rfl, rfl, rfl⟩,
    { sizes := ⟨rfl, rfl⟩, at_ := fun _ _ _ _ => rfl, sorted := by simp, lt := by simp, inner := by simp, skipped := fun _ _ _ _ _ => rfl,
      packed := fun h => absurd rfl h, dense := fun h => by cases h }⟩,
   ⟨⟨c, r, .sparse, [], fun j i => (m.resize r c).at_ i j⟩, ⟨rfl, rfl, rfl, rfl, rfl⟩,
    { sizes := ⟨rfl, rfl⟩, at_ := fun _ _ _ _ => rfl, sorted := by simp, lt := by simp, inner := by simp, skipped := fun _ _ _ _ _ => rfl,
      packed := fun h => absurd rfl h, dense := fun h => by cases h }⟩⟩

/-- Operations on an identity_matrix. -/
inductive IdOp | resize (r c : Nat) | resizeSq (n : Nat) | copy
/-- One operation. -/
def IdOp.run (m : IdMat) : IdOp → IdMat
  | .resize r c => m.resize r c
  | .resizeSq n => m.resizeSq n
  | .copy => m.copy
/-- The sizes the operation asks for. -/
def IdOp.sizes (s : Nat × Nat) : IdOp → Nat × Nat
  | .resize r c => (r, c)
  | .resizeSq n => (n, n)
  | .copy => s

theorem idMat_history (r0 c0 : Nat) (ops : List IdOp) :
    ops.foldl IdOp.run (IdMat.ctor r0 c0) = IdMat.ctor (ops.foldl IdOp.sizes (r0, c0)).1 (ops.foldl IdOp.sizes (r0, c0)).2 := by
  induction ops generalizing r0 c0 with
  | nil => rfl
  | cons op ops ih =>
    simp only [List.foldl_cons]
    rw [← ih]
    cases op <;> rfl

namespace IdMat
variable (dbg : Bool) (r c : Nat)

theorem rowOf_ok {i : Nat} (h1 : i < r) (h2 : i < c) : (ctor r c).rowOf dbg i = (.ok [(i, 1)] : M (List (Nat × R))) := by
  unfold rowOf walk2
  rw [walkChk_ok (get := (one : Nat → M R)) (f := fun _ => (1 : R)) _ _ _ (by omega) (by show i + 1 - i ≤ r + c + 1; omega)
    (fun k a b => ⟨rfl, fun _ => by show k < min r c; omega⟩)]
  simp
theorem colOf_ok {j : Nat} (h1 : j < r) : (ctor r c).colOf dbg j = (.ok [(j, 1)] : M (List (Nat × R))) := by
  unfold colOf walk1
  rw [walkChk_ok (get := (one : Nat → M R)) (f := fun _ => (1 : R)) _ _ _ (by omega) (by show j + 1 - j ≤ r + c + 1; omega)
    (fun k a b => ⟨rfl, fun _ => by show k < r; omega⟩)]
  simp
theorem rowFind_ok {i : Nat} (h1 : i < r) : (ctor r c).rowFind dbg i = (.ok (if i < c then [(i, 1)] else []) : M (List (Nat × R))) := by
  unfold rowFind walk2
  have e1 : (ctor r c).find2 1 i 0 = i := by simp [find2]
  have e2 : (ctor r c).find2 1 i (ctor r c).size2 = if i < c then i + 1 else i := by
    show (if (1 : Nat) = 1 then min (max c i) (i + 1) else c) = _
    split <;> split <;> omega
  rw [e1, e2]
  by_cases h : i < c
  · rw [if_pos h, if_pos h, walkChk_ok (get := (one : Nat → M R)) (f := fun _ => (1 : R)) _ _ _ (by omega) (by show i + 1 - i ≤ r + c + 1; omega)
      (fun k a b => ⟨rfl, fun _ => by show k < min r c; omega⟩)]
    simp
  · rw [if_neg h, if_neg h, walkChk_ok (get := (one : Nat → M R)) (f := fun _ => (1 : R)) _ _ _ (Nat.le_refl _) (by omega) (fun k a b => by omega)]
    simp
theorem colFind_ok (j : Nat) : (ctor r c).colFind dbg j = (.ok (if j < r then [(j, 1)] else []) : M (List (Nat × R))) := by
  unfold colFind walk1
  have e1 : (ctor r c).find1 1 0 j = j := by simp [find1]
  have e2 : (ctor r c).find1 1 (ctor r c).size1 j = if j < r then j + 1 else j := by
    show (if (1 : Nat) = 1 then min (max r j) (j + 1) else r) = _
    split <;> split <;> omega
  rw [e1, e2]
  by_cases h : j < r
  · rw [if_pos h, if_pos h, walkChk_ok (get := (one : Nat → M R)) (f := fun _ => (1 : R)) _ _ _ (by omega) (by show j + 1 - j ≤ r + c + 1; omega)
      (fun k a b => ⟨rfl, fun _ => by show k < r; omega⟩)]
    simp
  · rw [if_neg h, if_neg h, walkChk_ok (get := (one : Nat → M R)) (f := fun _ => (1 : R)) _ _ _ (Nat.le_refl _) (by omega) (fun k a b => by omega)]
    simp

theorem rowsDirect_ok : (ctor r c).rowsDirect dbg = (.ok ((List.range (min r c)).map fun i => (i, [(i, 1)])) : M (List (Nat × List (Nat × R)))) := by
  unfold rowsDirect walk1
  show walkChk dbg r _ _ 0 (min r c) = _
  rw [walkChk_ok (f := fun i => [(i, (1 : R))]) _ _ _ (by omega) (by show min r c - 0 ≤ r + c + 1; omega)
    (fun k _ b => ⟨rowOf_ok dbg r c (by omega) (by omega), fun _ => by omega⟩)]
  simp [List.range_eq_range']
theorem colsDirect_ok : (ctor r c).colsDirect dbg = (.ok ((List.range (min r c)).map fun i => (i, [(i, 1)])) : M (List (Nat × List (Nat × R)))) := by
  unfold colsDirect walk2
  show walkChk dbg (min r c) _ _ 0 (min r c) = _
  rw [walkChk_ok (f := fun i => [(i, (1 : R))]) _ _ _ (by omega) (by show min r c - 0 ≤ r + c + 1; omega)
    (fun k _ b => ⟨colOf_ok dbg r c (by omega), fun _ => by omega⟩)]
  simp [List.range_eq_range']
theorem rowsFind_ok : (ctor r c).rowsFind dbg = (.ok ((List.range r).map fun i => (i, if i < c then [(i, 1)] else [])) : M (List (Nat × List (Nat × R)))) := by
  unfold rowsFind walk1
  show walkChk dbg r _ _ 0 r = _
  rw [walkChk_ok (f := fun i => if i < c then [(i, (1 : R))] else []) _ _ _ (by omega) (by show r - 0 ≤ r + c + 1; omega)
    (fun k _ b => ⟨rowFind_ok dbg r c b, fun _ => b⟩)]
  simp [List.range_eq_range']
theorem colsFind_ok (h : dbg = true → c ≤ r) :
    (ctor r c).colsFind dbg = (.ok ((List.range c).map fun j => (j, if j < r then [(j, 1)] else [])) : M (List (Nat × List (Nat × R)))) := by
  unfold colsFind walk2
  show walkChk dbg (min r c) _ _ 0 c = _
  rw [walkChk_ok (f := fun j => if j < r then [(j, (1 : R))] else []) _ _ _ (by omega) (by show c - 0 ≤ r + c + 1; omega)
    (fun k _ b => ⟨colFind_ok dbg r c k, fun hd => by have := h hd; omega⟩)]
  simp [List.range_eq_range']
theorem colsFind_stop (h : r < c) : (ctor r c).colsFind true = (.error .badIndex : M (List (Nat × List (Nat × R)))) := by
  unfold colsFind walk2
  show walkChk true (min r c) _ _ 0 c = _
  exact walkChk_stop (f := fun j => if j < r then [(j, (1 : R))] else []) _ _ _ (by omega) (by omega) (by show min r c - 0 < r + c + 1; omega)
    (fun k _ _ => colFind_ok true r c k)
end IdMat

/-- Lines that hold the diagonal element where there is one, and nothing else, present the identity. -/
theorem identity_exp {r c n : Nat} {get : Nat → Nat → M R} {L : List (Nat × List (Nat × R))} (hg : ∀ k l, k < r → l < c → get k l = .ok (if k = l then 1 else 0))
    (hL : L = (List.range n).map fun k => (k, if k < c then [(k, 1)] else [])) (hn : min r c ≤ n) (hn' : n ≤ r) :
    (⟨r, c, .sparse, L, get⟩ : MExp R).Presents r c (fun k l => if k = l then 1 else 0) where
  sizes := ⟨rfl, rfl⟩
  at_ := hg
  sorted := by
    show (L.map (·.1)).Pairwise (· < ·)
    subst hL
    simp [List.map_map, Function.comp_def, List.pairwise_lt_range]
  lt q hq := by
    subst hL
    simp only [List.mem_map, List.mem_range] at hq
    obtain ⟨k, h, rfl⟩ := hq
    show k < r
    omega
  inner q hq := by
    subst hL
    simp only [List.mem_map, List.mem_range] at hq
    obtain ⟨k, h, rfl⟩ := hq
    by_cases hk : k < c
    · simp [hk]
    · simp [hk]
  skipped k l hk hl h := by
    by_cases hkl : k = l
    · subst hkl
      exfalso
      refine h (k, [(k, 1)]) ?_ rfl (by simp)
      show _ ∈ L
      rw [hL]
      exact List.mem_map.2 ⟨k, List.mem_range.2 (by omega), by rw [if_pos hl]⟩
    · exact if_neg hkl
  packed h := absurd rfl h
  dense h := by cases h

/-- **C76**, identity_matrix after any history of resizes and copies: element access, the loops over the matrix itself (row-wise, column-wise) and the row-wise
loop of expressions over it present the identity (one on the diagonal, zero elsewhere, rectangular allowed); the column-wise loop of expressions does in
release builds and for matrices that are not wide. -/
theorem C76_identity_matrix_partial (dbg : Bool) (r0 c0 : Nat) (ops : List IdOp) :
    let m := ops.foldl IdOp.run (IdMat.ctor r0 c0)
    let r := (ops.foldl IdOp.sizes (r0, c0)).1
    let c := (ops.foldl IdOp.sizes (r0, c0)).2
    m.size1 = r ∧ m.size2 = c ∧
    (∃ e : MExp R, e.Of r c .sparse (m.rowsDirect dbg) m.at_ ∧ e.Presents r c (fun i j => if i = j then 1 else 0)) ∧
    (∃ e : MExp R, e.Of c r .sparse (m.colsDirect dbg) (fun j i => m.at_ i j) ∧ e.Presents c r (fun j i => if j = i then 1 else 0)) ∧
    (∃ e : MExp R, e.Of r c .sparse (m.rowsFind dbg) m.at_ ∧ e.Presents r c (fun i j => if i = j then 1 else 0)) ∧
    ((dbg = true → c ≤ r) → ∃ e : MExp R, e.Of c r .sparse (m.colsFind dbg) (fun j i => m.at_ i j) ∧ e.Presents c r (fun j i => if j = i then 1 else 0)) := by
  intro m r c
  have hm : m = IdMat.ctor r c := idMat_history r0 c0 ops
  rw [hm]
  have hd : ∀ (a b : Nat), ((List.range (min a b)).map fun i => (i, [(i, (1 : R))])) = (List.range (min a b)).map fun k => (k, if k < b then [(k, (1 : R))] else []) := by
    intro a b
    refine List.map_congr_left fun i hi => ?_
    rw [if_pos (by have := List.mem_range.1 hi; omega)]
  have hat : ∀ j i : Nat, (.ok (if i = j then 1 else 0) : M R) = .ok (if j = i then 1 else 0) := fun j i => by
    by_cases h : i = j
    · rw [if_pos h, if_pos h.symm]
    · rw [if_neg h, if_neg (Ne.symm h)]
  refine ⟨rfl, rfl, ⟨_, ⟨rfl, rfl, rfl, IdMat.rowsDirect_ok dbg r c, rfl⟩, identity_exp (fun _ _ _ _ => rfl) (hd r c) (Nat.le_refl _) (by omega)⟩,
    ⟨_, ⟨rfl, rfl, rfl, IdMat.colsDirect_ok dbg r c, rfl⟩, identity_exp (fun k l _ _ => hat k l) (by rw [Nat.min_comm r c]; exact hd c r) (by omega) (by omega)⟩,
    ⟨_, ⟨rfl, rfl, rfl, IdMat.rowsFind_ok dbg r c, rfl⟩, identity_exp (fun _ _ _ _ => rfl) rfl (by omega) (Nat.le_refl _)⟩,
    fun h => ⟨_, ⟨rfl, rfl, rfl, IdMat.colsFind_ok dbg r c h, rfl⟩, identity_exp (fun k l _ _ => hat k l) rfl (by omega) (Nat.le_refl _)⟩⟩

/-- The full claim for the column-wise loop of expressions. -/
def C76_identity_columns_claim (R : Type) [Semiring R] : Prop :=
  ∀ (dbg : Bool) (r c : Nat), ∃ e : MExp R, e.Of c r .sparse ((IdMat.ctor r c).colsFind dbg) (fun j i => (IdMat.ctor r c).at_ i j) ∧ e.Presents c r (fun j i => if j = i then 1 else 0)

/-- It fails for every identity matrix with more columns than rows: in a debug build the column-wise loop over any expression that contains it throws `bad_index`. -/
theorem C76_identity_columns_throw (r c : Nat) (h : r < c) : (IdMat.ctor r c).colsFind true = (.error .badIndex : M (List (Nat × List (Nat × R)))) := IdMat.colsFind_stop r c h

theorem C76_identity_columns_refuted : ¬ C76_identity_columns_claim R := by
  intro h
  obtain ⟨e, ⟨_, _, _, h1, _⟩, _⟩ := h true 2 5
  rw [C76_identity_columns_throw 2 5 (by omega)] at h1
  cases h1

/-- **C76**, scalar_matrix (row-wise and column-wise). -/
theorem C76_scalar_matrix (dbg : Bool) (m : ScalarMat R) (r c : Nat) :
    (∃ e : MExp R, e.Of r c .dense ((m.resize r c).rows dbg) (m.resize r c).at_ ∧ e.Presents r c (fun _ _ => m.value)) ∧
    (∃ e : MExp R, e.Of c r .dense ((m.resize r c).cols dbg) (fun j i => (m.resize r c).at_ i j) ∧ e.Presents c r (fun _ _ => m.value)) := by
  have key : ∀ {β : Type} (get : Nat → M β) (x : β) (n : Nat), (∀ k, k < n → get k = .ok x) → walkIdx get n 0 n = .ok ((List.range n).map fun k => (k, x)) := by
    intro β get x n h
    have : ∀ fuel b, b + fuel = n → walkIdx get fuel b n = .ok ((List.range' b fuel).map fun k => (k, x)) := by
      intro fuel
      induction fuel with
      | zero => intro b hb; simp [walkIdx]; omega
      | succ f ih =>
        intro b hb
        rw [walkIdx, if_neg (by omega), h b (by omega), bind_ok, ih (b + 1) (by omega), bind_ok, pure_eq_ok]
        simp [List.range'_succ]
    rw [this n 0 (by omega), List.range_eq_range']
  have hd : ∀ i j, i < r → j < c → (m.resize r c).deref dbg i j = .ok m.value := by
    intro i j hi hj
    unfold ScalarMat.deref
    rw [check_true (show i < (m.resize r c).size1 from hi), bind_ok, check_true (show j < (m.resize r c).size2 from hj)]
    rfl
  have P : ∀ (a b : Nat) (get : Nat → Nat → M R), (∀ k l, k < a → l < b → get k l = .ok m.value) →
      (⟨a, b, .dense, (List.range a).map fun k => (k, (List.range b).map fun l => (l, m.value)), get⟩ : MExp R).Presents a b (fun _ _ => m.value) := by
    intro a b get hg
    have hin : ((List.range b).map fun l => (l, m.value)).map (·.1) = List.range b := by simp [List.map_map, Function.comp_def]
    have hout : ((List.range a).map fun k => (k, (List.range b).map fun l => (l, m.value))).map (·.1) = List.range a := by simp [List.map_map, Function.comp_def]
    have hq : ∀ q ∈ (List.range a).map (fun k => (k, (List.range b).map fun l => (l, m.value))), q.1 < a ∧ q.2 = (List.range b).map fun l => (l, m.value) := by
      intro q hq
      obtain ⟨k, h, rfl⟩ := List.mem_map.1 hq
      exact ⟨List.mem_range.1 h, rfl⟩
    refine { sizes := ⟨rfl, rfl⟩, at_ := hg, sorted := ?_, lt := fun q h => (hq q h).1, inner := ?_, skipped := ?_, packed := ?_, dense := ?_ }
    · show (List.map _ _).Pairwise _; rw [hout]; exact List.pairwise_lt_range
    · intro q h
      rw [(hq q h).2, hin]
      refine ⟨List.pairwise_lt_range, fun p hp => ?_⟩
      obtain ⟨l, hl, rfl⟩ := List.mem_map.1 hp
      exact ⟨List.mem_range.1 hl, rfl⟩
    · intro k l hk hl h
      refine absurd ?_ (h (k, _) (List.mem_map.2 ⟨k, List.mem_range.2 hk, rfl⟩) rfl)
      rw [hin]; exact List.mem_range.2 hl
    · intro _
      refine ⟨⟨0, ?_⟩, fun q h => ⟨0, ?_⟩⟩
      · show List.map _ _ = _; rw [hout]; simp [List.range_eq_range']
      · rw [(hq q h).2, hin]; simp [List.range_eq_range']
    · intro _ _
      exact ⟨hout, fun q h => by rw [(hq q h).2, hin]⟩
  constructor
  · refine ⟨_, ⟨rfl, rfl, rfl, ?_, rfl⟩, P r c _ (fun _ _ _ _ => rfl)⟩
    exact key _ _ r fun i hi => key _ _ c fun j hj => hd i j hi hj
  · refine ⟨_, ⟨rfl, rfl, rfl, ?_, rfl⟩, P c r _ (fun _ _ _ _ => rfl)⟩
    exact key _ _ c fun j hj => key _ _ r fun i hi => hd i j hi hj

/-- Consequence for `identity_matrix`: `m = identity_matrix (r, c)` (and `+=`, `-=`) for a dense matrix of either orientation, both evaluation modes: every element is
combined with one on the diagonal and zero elsewhere.  The expression `e` is what the container's own iterators deliver. -/
theorem C76_identity_assigned {R : Type} [Ring R] [DecidableEq R] (dbg : Bool) (mode : ProdFn.Mode) (o : Orient) (F : AssignF) (m : Dense R) (hw : m.WF) :
    ∃ e : MExp R, e.Of (o.sizeM m.size1 m.size2) (o.sizem m.size1 m.size2) .sparse
        (match o with | .row => (IdMat.ctor m.size1 m.size2).rowsDirect dbg | .col => (IdMat.ctor m.size1 m.size2).colsDirect dbg)
        (fun k l => (IdMat.ctor m.size1 m.size2).at_ (o.indexM k l) (o.indexm k l)) ∧
    ∃ data, MAssign.assign dbg mode .dense (MT.view dbg (o.sizeM m.size1 m.size2) (o.sizem m.size1 m.size2) (fun k l => o.elementRaw (o.indexM k l) m.size1 (o.indexm k l) m.size2)) F e m.data = .ok data ∧
      ∀ i j, i < m.size1 → j < m.size2 → ∃ x, m.get dbg o i j = .ok x ∧
        ({ m with data := data } : Dense R).get dbg o i j = .ok (F.apply x (if i = j then 1 else 0)) := by
  obtain ⟨_, _, ⟨e1, h1, p1⟩, ⟨e2, h2, p2⟩, _⟩ := C76_identity_matrix_partial (R := R) dbg m.size1 m.size2 []
  cases o with
  | row =>
    refine ⟨e1, h1, ?_⟩
    obtain ⟨d, a1, _, a3⟩ := C68_dense dbg mode .row F m hw e1 (fun i j => if i = j then 1 else 0) p1
    exact ⟨d, a1, a3⟩
  | col =>
    refine ⟨e2, h2, ?_⟩
    have p2' : e2.Presents m.size2 m.size1 (fun k l => if l = k then 1 else 0) := by
      have : (fun (k l : Nat) => if k = l then (1 : R) else 0) = fun k l => if l = k then 1 else 0 := by
        funext k l
        by_cases h : k = l
        · rw [if_pos h, if_pos h.symm]
        · rw [if_neg h, if_neg (Ne.symm h)]
      rw [← this]; exact p2
    obtain ⟨d, a1, _, a3⟩ := C68_dense dbg mode .col F m hw e2 (fun i j => if i = j then 1 else 0) p2'
    exact ⟨d, a1, a3⟩

example : (IdMat.ctor 2 3).rowsDirect true = (.ok [(0, [(0, 1)]), (1, [(1, 1)])] : M (List (Nat × List (Nat × Int)))) := by decide
example : (IdMat.ctor 2 3).colsFind true = (.error .badIndex : M (List (Nat × List (Nat × Int)))) := by decide
example : (IdMat.ctor 3 2).colsFind true = (.ok [(0, [(0, 1)]), (1, [(1, 1)])] : M (List (Nat × List (Nat × Int)))) := by decide

end Ublas
