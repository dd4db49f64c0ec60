import Verif.Props.ExcNothing
/-! # C105: insertion into compressed_matrix and the coordinate containers, when no allocation fails -/
namespace Ublas.XC
open Search SparseSpec Coo
variable {σ α κ : Type}

/-- **C105** (compressed_matrix): `insert_element` at a position of the matrix without a stored element is that of C16, unless an allocation fails. -/
theorem C105_cmatrix_insert_otherwise (fail : Nat → Bool) (dbg : Bool) (o : Orient) (IB : Nat) (zero : α) (junk : CMat.Junk α) (v : CMat α) (s : CMatS α) (h : CMat.Inv o IB v s)
    (i j : Nat) (t : α) (hi : i < s.rows) (hj : j < s.cols) (hnone : s.val (i, j) = none) (k : Nat) :
    Matches fail k (cmInsert fail dbg o IB zero junk i j t v k) (do let r ← v.insertElement dbg o IB zero junk i j t; .ok r.1) := by
  obtain ⟨E, h, h1, h2, h3, h4⟩ := h
  have hi' : i < v.size1 := by omega
  have hj' : j < v.size2 := by omega
  have hm : o.indexm i j < o.sizem v.size1 v.size2 := CMat.minor_lt o hi' hj'
  have hn : CMat.flat o s (o.indexM i j * o.sizem v.size1 v.size2 + o.indexm i j) = none := by rw [h1, h2, CMat.flat_at o s hi hj]; exact hnone
  have hkey : o.indexM i j * o.sizem v.size1 v.size2 + o.indexm i j < v.size1 * v.size2 := by
    have := CMat.key_lt (CMat.major_lt o hi' hj') hm
    rwa [CMat.sizeM_mul o] at this
  have hroom := h.filled2_lt hkey hn
  obtain ⟨T, hT⟩ : ∃ T : CMat α → M (CMat α × Nat), ∀ u : CMat α, u.insertElement dbg o IB zero junk i j t = (do
      let _ ← (if dbg = true then do
          let r ← u.findElement dbg o IB i j
          check dbg (r.isNone = true) .badIndex
        else .ok () : M Unit)
      let u ← (if u.filled2 ≥ u.cap then u.reserve dbg o IB zero junk (2 * u.filled2) true else .ok u : M (CMat α))
      T u) := ⟨_, fun u => rfl⟩
  have hfind : ∀ {u : CMat α}, CMat.Core o IB u E (CMat.flat o s) → u.size1 = v.size1 → u.size2 = v.size2 → (if dbg = true then (do
      let r ← u.findElement dbg o IB i j
      check dbg (r.isNone = true) .badIndex : M Unit) else .ok ()) = .ok () := by
    intro u hu g1 g2
    split
    · rw [hu.findElement dbg (by rw [g1, g2]; exact hm), bind_ok, g1, g2, hn]; simp
    · rfl
  have last : ∀ (u : CMat α) (k1 : Nat), CMat.Core o IB u E (CMat.flat o s) → u.size1 = v.size1 → u.size2 = v.size2 → ¬ u.filled2 ≥ u.cap →
      Matches fail k1 ((eval (u.insertElement dbg o IB zero junk i j t) >>= fun r => upd fun _ => r.1) u k1) (do let r ← T u; .ok r.1) := by
    intro u k1 hu g1 g2 hnf
    rw [hT u, hfind hu g1 g2, bind_ok, if_neg hnf, bind_ok]
    cases T u with
    | error f => exact .fault f k1
    | ok r => exact .done r.1 k1
  unfold cmInsert
  simp only [bind_self]
  rw [hT v, hfind h rfl rfl]
  simp only [bind_eval_ok, bind_ok]
  by_cases hf : v.filled2 ≥ v.cap
  · rw [if_pos hf, if_pos hf]
    have hfull : v.filled2 = v.cap := Nat.le_antisymm h.fill hf
    have hc : v.filled2 < CMat.restrictCapacity v.size1 v.size2 (2 * v.filled2) := CMat.lt_restrict hroom (fun _ => rfl)
    rw [show ∀ (x : M (CMat α)) (g : CMat α → M (CMat α × Nat)) (h : CMat α × Nat → M (CMat α)), ((x >>= g) >>= h) = (x >>= fun a => g a >>= h) from fun x g h => by cases x <;> rfl]
    refine Matches.bind ((C105_cmatrix_otherwise fail dbg o IB zero junk v k).1 _) fun w k1 _ e => ?_
    simp only [bind_self]
    have hw : w = { v with cap := CMat.restrictCapacity v.size1 v.size2 (2 * v.filled2), idx2 := resizeInit v.idx2 (CMat.restrictCapacity v.size1 v.size2 (2 * v.filled2)) 0, val := resizeInit v.val (CMat.restrictCapacity v.size1 v.size2 (2 * v.filled2)) zero } := by
      unfold CMat.reserve at e
      simp only [if_true, bind_ok, Nat.min_eq_right (Nat.le_of_lt hc)] at e
      generalize (CMat.mk v.size1 v.size2 (CMat.restrictCapacity v.size1 v.size2 (2 * v.filled2)) v.filled1 v.filled2 v.idx1
        (resizeInit v.idx2 (CMat.restrictCapacity v.size1 v.size2 (2 * v.filled2)) 0) (resizeInit v.val (CMat.restrictCapacity v.size1 v.size2 (2 * v.filled2)) zero)) = u at e ⊢
      cases hu : u.invariants dbg o IB with
      | error f => rw [hu] at e; cases e
      | ok _ => rw [hu] at e; cases e; rfl
    subst hw
    exact last _ k1 (core_resized h zero _ (Nat.le_of_lt hc)) rfl rfl (Nat.not_le.2 hc)
  · rw [if_neg hf, if_neg hf, bind_ok]
    exact last v k h rfl rfl hf

variable [DecidableEq κ] [AddCommMonoid α]

/-- **C105** (coordinate containers): `append_element` is that of C14 / C17, unless an allocation fails. -/
theorem C105_coordinate_append_otherwise {P : CooPar κ α} (hP : ParOk P) (hmin : 0 < P.minCap) (fail : Nat → Bool) (dbg : Bool) (zero : α) (junk : Coo.Junk κ α) (v : Coo κ α) (A : List (κ × α))
    (h : Coo.Inv P v A) (x : κ) (t : α) (k : Nat) :
    Matches fail k (cooAppend fail dbg P zero junk x t v k) (v.append dbg P zero junk x t) := by
  obtain ⟨T, hT⟩ : ∃ T : Coo κ α → M (Coo κ α), ∀ u : Coo κ α, u.append dbg P zero junk x t = (do
      let u ← (if u.filled ≥ u.cap then u.reserve dbg P zero junk (2 * u.filled) true else .ok u : M (Coo κ α))
      T u) := ⟨_, fun u => rfl⟩
  have last : ∀ (u : Coo κ α) (k1 : Nat), ¬ u.filled ≥ u.cap → Matches fail k1 ((eval (u.append dbg P zero junk x t) >>= fun r => upd fun _ => r) u k1) (T u) := by
    intro u k1 hnf
    rw [hT u, if_neg hnf, bind_ok]
    cases T u with
    | error f => exact .fault f k1
    | ok r => exact .done r k1
  obtain ⟨v1, B, e, _, hlt, _, _⟩ := Coo.grow_spec hP dbg zero junk h hmin
  unfold cooAppend
  simp only [bind_self]
  rw [hT v]
  by_cases hf : v.filled ≥ v.cap
  · rw [if_pos hf, if_pos hf]
    rw [if_pos hf] at e
    refine Matches.bind ((C105_coordinate_otherwise fail dbg P zero junk v k).1 _) fun w k1 _ e' => ?_
    rw [e] at e'
    cases e'
    simp only [bind_self]
    exact last _ k1 (by omega)
  · rw [if_neg hf, if_neg hf, bind_ok]
    exact last v k hf

/-- The hypotheses are met by a full matrix and a full container. -/
example : Matches (fun k => k == 1) 0 (cmInsert (fun k => k == 1) true .row 0 0 (fun _ => 0, fun _ => 0) 0 2 9 exM 0) (do let r ← exM.insertElement true .row 0 0 (fun _ => 0, fun _ => 0) 0 2 9; .ok r.1) :=
  C105_cmatrix_insert_otherwise _ true .row 0 0 _ exM exMs exM_inv 0 2 9 (by decide) (by decide) rfl 0
example : Matches (fun k => k == 1) 0 (cooAppend (fun k => k == 1) true exPar 0 (fun _ => 0, fun _ => 0) 2 9 exCoo 0) (exCoo.append true exPar 0 (fun _ => 0, fun _ => 0) 2 9) :=
  C105_coordinate_append_otherwise exPar_ok (by decide) _ true 0 _ exCoo _ exCoo_inv 2 9 0

end Ublas.XC
