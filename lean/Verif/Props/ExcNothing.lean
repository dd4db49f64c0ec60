import Verif.Props.ExcSparse
/-! # C105: an operation whose allocations all succeed does what the failure-free operation does -/
namespace Ublas.XC
open Search
variable {σ α κ : Type}

/-- What an operation under a failing allocator may do, next to the failure-free operation `r`: `std::bad_alloc`, but only if one of its allocations (numbered from `k`) failed; otherwise it ends exactly
like `r`, with the same members or the same fault. -/
def Matches (fail : Nat → Bool) (k : Nat) (R : Res σ Unit) (r : M σ) : Prop :=
  (∃ s', R = .bad s' ∧ ∃ j, k ≤ j ∧ fail j = true) ∨ ∃ k', k ≤ k' ∧ R = match r with | .ok s' => .ok () s' k' | .error f => .err f

variable {fail : Nat → Bool}

theorem Matches.mono {k k1 : Nat} {R : Res σ Unit} {r : M σ} (h : Matches fail k1 R r) (hk : k ≤ k1) : Matches fail k R r := by
  rcases h with ⟨s', e, j, hj, hf⟩ | ⟨k', hk', e⟩
  · exact .inl ⟨s', e, j, by omega, hf⟩
  · exact .inr ⟨k', by omega, e⟩

theorem Matches.done (s : σ) (k : Nat) : Matches fail k (.ok () s k) (.ok s) := .inr ⟨k, Nat.le_refl _, rfl⟩
theorem Matches.fault (f : Fault) (k : Nat) : Matches fail k (.err f : Res σ Unit) (.error f : M σ) := .inr ⟨k, Nat.le_refl _, rfl⟩

/-- An allocation, then the rest. -/
theorem Matches.room {len n k : Nat} {f : Unit → X σ Unit} {s : σ} {r : M σ} (h : ∀ k1, k ≤ k1 → Matches fail k1 (f () s k1) r) : Matches fail k ((room fail len n >>= f) s k) r := by
  rw [bind_room]
  split
  · rename_i hf
    exact .inl ⟨s, rfl, k, Nat.le_refl _, hf.2.2⟩
  · split
    · exact (h (k + 1) (by omega)).mono (by omega)
    · exact h k (Nat.le_refl _)

/-- A step, then the rest. -/
theorem Matches.bind {k : Nat} {x : X σ Unit} {f : Unit → X σ Unit} {s : σ} {r : M σ} {g : σ → M σ} (hx : Matches fail k (x s k) r) (h : ∀ s1 k1, k ≤ k1 → r = .ok s1 → Matches fail k1 (f () s1 k1) (g s1)) :
    Matches fail k ((x >>= f) s k) (r >>= g) := by
  show Matches fail k (X.bind x f s k) _
  unfold X.bind
  rcases hx with ⟨s', e, j, hj, hf⟩ | ⟨k', hk', e⟩
  · rw [e]; exact .inl ⟨s', rfl, j, hj, hf⟩
  · rw [e]
    cases r with
    | ok s1 => exact (h s1 k' hk' rfl).mono hk'
    | error f => exact (Matches.fault f k)

/-- The final `storage_invariants ()`. -/
theorem Matches.check {k : Nat} {s : σ} {c : M Unit} : Matches fail k ((eval c : X σ Unit) s k) (do c; .ok s) := by
  cases c with
  | ok u => exact .done s k
  | error f => exact .fault f k

/-- **C105** (dense and packed copy assignment): `m = n` ends with `m` equal to `n` in every member, unless an allocation fails. -/
theorem C105_assign_otherwise (fail : Nat → Bool) (k : Nat) :
    (∀ m n : Dense α, Matches fail k (denseAssign fail n m k) (.ok n)) ∧
    (∀ m n : Packed.TMat α, Matches fail k (triAssign fail n m k) (.ok n)) ∧
    (∀ m n : Packed.SMat α, Matches fail k (symAssign fail n m k) (.ok n)) ∧
    (∀ m n : BMat α, Matches fail k (bandAssign fail n m k) (.ok n)) := by
  refine ⟨fun m n => ?_, fun m n => ?_, fun m n => ?_, fun m n => ?_⟩
  · exact Matches.room fun k1 _ => .done n k1
  · exact Matches.room fun k1 _ => .done n k1
  · exact Matches.room fun k1 _ => .done n k1
  · exact Matches.room fun k1 _ => .done n k1

/-- **C105** (compressed_vector): `reserve`, `resize`, `insert_element` and `operator =` are those of C13, unless an allocation fails. -/
theorem C105_compressed_otherwise (fail : Nat → Bool) (dbg : Bool) (IB : Nat) (zero : α) (junk : CVec.Junk α) (v : CVec α) (k : Nat) :
    (∀ nz, Matches fail k (cvReserve fail dbg IB zero nz v k) (v.reserve dbg IB zero junk nz true)) ∧
    (∀ n, Matches fail k (cvResize fail dbg IB zero n v k) (v.resize dbg IB zero junk n true)) ∧
    (∀ i t, Matches fail k (cvInsert fail dbg IB zero i t v k) (do let r ← v.insertElement dbg IB zero junk i t; .ok r.1)) ∧
    (∀ w : CVec α, Matches fail k (cvAssign fail dbg IB w v k) (do w.invariants dbg IB; .ok w)) := by
  have hres : ∀ (v : CVec α) (k nz : Nat), Matches fail k (cvReserve fail dbg IB zero nz v k) (v.reserve dbg IB zero junk nz true) := fun v k nz =>
    Matches.room fun k1 _ => Matches.room fun k2 _ => Matches.check
  refine ⟨hres v k, fun n => ?_, fun i t => ?_, fun w => ?_⟩
  · refine Matches.room fun k1 _ => Matches.room fun k2 _ => ?_
    unfold CVec.resize
    simp only [if_true, bind_upd, bind_self]
    cases CVec.shrink dbg IB n (resizeInit v.idx (CVec.restrictCapacity n v.cap) 0) (min (CVec.restrictCapacity n v.cap) v.filled) with
    | error f => exact .fault f k2
    | ok f =>
      simp only [bind_eval_ok, bind_upd, bind_self, bind_ok]
      exact Matches.check
  · unfold cvInsert CVec.insertElement
    simp only [bind_self]
    generalize (if dbg = true then (do let r ← v.findElement dbg IB i; check dbg (r.isNone = true) .badIndex) else .ok () : M Unit) = c0
    cases c0 with
    | error f => exact .fault f k
    | ok u =>
      simp only [bind_eval_ok, bind_ok]
      rw [show ∀ (x : M (CVec α)) (g : CVec α → M (CVec α × Nat)) (h : CVec α × Nat → M (CVec α)), ((x >>= g) >>= h) = (x >>= fun a => g a >>= h) from fun x g h => by cases x <;> rfl]
      refine Matches.bind (r := if v.filled ≥ v.cap then v.reserve dbg IB zero junk (2 * v.cap) true else .ok v) ?_ fun w k1 _ _ => ?_
      · split
        · exact hres v k _
        · exact .done v k
      · simp only [bind_self]
        cases w.lb IB i with
        | error f => exact .fault f k1
        | ok n =>
          simp only [bind_eval_ok, bind_ok]
          generalize (if dbg = true ∧ w.filled ≠ 0 ∧ w.filled ≠ n then (do let x ← rd false w.idx n; check dbg (x ≠ i + IB) .internalLogic) else .ok () : M Unit) = c1
          cases c1 with
          | error f => exact .fault f k1
          | ok u =>
            simp only [bind_eval_ok, bind_ok]
            cases copyBackward w.idx n w.filled with
            | error f => exact .fault f k1
            | ok a =>
              simp only [bind_eval_ok, bind_ok]
              cases wr false a n (i + IB) with
              | error f => exact .fault f k1
              | ok b =>
                simp only [bind_eval_ok, bind_ok]
                cases copyBackward w.val n w.filled with
                | error f => exact .fault f k1
                | ok c =>
                  simp only [bind_eval_ok, bind_ok]
                  cases wr false c n t with
                  | error f => exact .fault f k1
                  | ok d =>
                    simp only [bind_eval_ok, bind_ok, bind_upd, bind_self]
                    cases CVec.invariants dbg IB ⟨w.size, w.cap, w.filled + 1, b, d⟩ with
                    | error f => exact .fault f k1
                    | ok u => exact .done _ k1
  · exact Matches.room fun k1 _ => Matches.room fun k2 _ => Matches.check

/-- **C105** (compressed_matrix): `reserve`, `resize` and `operator =` are those of C16, unless an allocation fails. -/
theorem C105_cmatrix_otherwise (fail : Nat → Bool) (dbg : Bool) (o : Orient) (IB : Nat) (zero : α) (junk : CMat.Junk α) (v : CMat α) (k : Nat) :
    (∀ nz, Matches fail k (cmReserve fail dbg o IB zero nz v k) (v.reserve dbg o IB zero junk nz true)) ∧
    (∀ r c, Matches fail k (cmResize fail dbg o IB junk r c v k) (v.resize dbg o IB junk r c false)) ∧
    (∀ w : CMat α, Matches fail k (cmAssign fail dbg o IB w v k) (do w.invariants dbg o IB; .ok w)) := by
  refine ⟨fun nz => ?_, fun r c => ?_, fun w => ?_⟩
  · exact Matches.room fun k1 _ => Matches.room fun k2 _ => Matches.check
  · refine Matches.room fun k1 _ => Matches.room fun k2 _ => Matches.room fun k3 _ => ?_
    unfold CMat.resize
    simp only [bind_self, bind_upd]
    simp only [check_True, bind_ok, Nat.sub_self]
    cases wr dbg (resizeRaw junk.1 v.idx1 (o.sizeM r c + 1)) 0 (0 + IB) with
    | error f => exact .fault f k3
    | ok d =>
      simp only [bind_eval_ok, bind_ok, bind_upd, bind_self]
      exact Matches.check
  · exact Matches.room fun k1 _ => Matches.room fun k2 _ => Matches.room fun k3 _ => Matches.check

variable [DecidableEq κ] [Add α]

/-- **C105** (coordinate containers): `reserve` and `operator =` are those of C14 / C17, unless an allocation fails. -/
theorem C105_coordinate_otherwise (fail : Nat → Bool) (dbg : Bool) (P : CooPar κ α) (zero : α) (junk : Coo.Junk κ α) (v : Coo κ α) (k : Nat) :
    (∀ nz, Matches fail k (cooReserve fail dbg P zero nz v k) (v.reserve dbg P zero junk nz true)) ∧
    (∀ w : Coo κ α, Matches fail k (cooAssign fail dbg P w v k) (do w.invariants dbg P; .ok w)) := by
  refine ⟨fun nz => ?_, fun w => ?_⟩
  · unfold cooReserve Coo.reserve
    simp only [bind_self, true_or, if_true]
    cases v.sort dbg P with
    | error f => exact .fault f k
    | ok v1 =>
      simp only [bind_eval_ok, bind_ok, bind_upd, bind_self]
      exact Matches.room fun k1 _ => Matches.room fun k2 _ => Matches.check
  · exact Matches.room fun k1 _ => Matches.room fun k2 _ => Matches.check

/-- With an allocator that never fails every operation ends like the failure-free one. -/
theorem Matches.never {k : Nat} {R : Res σ Unit} {r : M σ} (h : Matches (fun _ => false) k R r) : ∃ k', R = match r with | .ok s' => .ok () s' k' | .error f => .err f := by
  rcases h with ⟨_, _, _, _, h⟩ | ⟨k', _, e⟩
  · exact absurd h (by simp)
  · exact ⟨k', e⟩

/-- Growing a full vector: two allocations, numbers 5 and 6. -/
example : (∃ v', cvInsert (fun k => k == 6) false 0 0 2 9 exC 5 = .bad v') ∧ ∃ v', cvInsert (fun k => k == 7) false 0 0 2 9 exC 5 = .ok () v' 7 ∧ v'.get false 0 0 2 = .ok 9 :=
  ⟨⟨_, rfl⟩, _, rfl, rfl⟩

end Ublas.XC
