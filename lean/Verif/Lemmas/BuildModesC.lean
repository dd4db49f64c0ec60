import Verif.Lemmas.BuildModesB
import Verif.Model.Mapped
import Verif.Model.MapOfMaps
/-! `Agrees` for the map-based containers (over any map whose own members agree) and for the histories of the coordinate containers. -/
namespace Ublas
variable {α σ τ κ ι : Type}

private theorem bind_eq_ok {β γ : Type} {x : M β} {f : β → M γ} {c : γ} : x >>= f = .ok c ↔ ∃ b, x = .ok b ∧ f b = .ok c := by
  cases x with
  | ok a => simp
  | error e => constructor
               · intro h; cases h
               · rintro ⟨b, h, -⟩; cases h

/-- The members of the underlying map agree. -/
class MapAgrees (I : MapImpl σ α) : Prop where
  insert : ∀ m k v, Agrees (I.insert true m k v) (I.insert false m k v)
  eraseKey : ∀ m k, Agrees (I.eraseKey true m k) (I.eraseKey false m k)
  eraseFrom : ∀ m k, Agrees (I.eraseFrom true m k) (I.eraseFrom false m k)
  clear : ∀ m, Agrees (I.clear true m) (I.clear false m)
  reserve : ∀ m n, Agrees (I.reserve true m n) (I.reserve false m n)

macro_rules | `(tactic| agree1) => `(tactic| (with_reducible first | exact MapAgrees.insert _ _ _ | exact MapAgrees.eraseKey _ _ | exact MapAgrees.eraseFrom _ _ | exact MapAgrees.clear _ | exact MapAgrees.reserve _ _))

instance mapArrayImpl_agrees (zero : α) : MapAgrees (mapArrayImpl zero) where
  insert m k v := by simp only [mapArrayImpl]; agree
  eraseKey m k := by simp only [mapArrayImpl]; agree
  eraseFrom m k := by simp only [mapArrayImpl]; agree
  clear m := by simp only [mapArrayImpl]; agree
  reserve m n := by simp only [mapArrayImpl]; agree

instance stdMapImpl_agrees : MapAgrees (stdMapImpl : MapImpl (List (Nat × α)) α) where
  insert _ _ _ := Agrees.rfl
  eraseKey _ _ := Agrees.rfl
  eraseFrom _ _ := Agrees.rfl
  clear _ := Agrees.rfl
  reserve _ _ := Agrees.rfl

section
variable (I : MapImpl σ α) [MapAgrees I] (zero : α)

theorem MappedVec.ctor_agrees (n nz : Nat) : Agrees (MappedVec.ctor I true n nz) (MappedVec.ctor I false n nz) := by
  unfold MappedVec.ctor; agree
theorem MappedVec.get_agrees (v : MappedVec σ) (i : Nat) : Agrees (MappedVec.get I true zero v i) (MappedVec.get I false zero v i) := by
  unfold MappedVec.get; agree
theorem MappedVec.modify_agrees (v : MappedVec σ) (i : Nat) (f : α → α) : Agrees (MappedVec.modify I true zero v i f) (MappedVec.modify I false zero v i f) := by
  unfold MappedVec.modify; agree
theorem MappedVec.insertElement_agrees (v : MappedVec σ) (i : Nat) (t : α) : Agrees (MappedVec.insertElement I true v i t) (MappedVec.insertElement I false v i t) := by
  unfold MappedVec.insertElement; agree
theorem MappedVec.eraseElement_agrees (v : MappedVec σ) (i : Nat) : Agrees (MappedVec.eraseElement I true v i) (MappedVec.eraseElement I false v i) := by
  unfold MappedVec.eraseElement; agree
theorem MappedVec.clear_agrees (v : MappedVec σ) : Agrees (MappedVec.clear I true v) (MappedVec.clear I false v) := by
  unfold MappedVec.clear; agree
theorem MappedVec.resize_agrees (v : MappedVec σ) (n : Nat) (p : Bool) : Agrees (MappedVec.resize I true v n p) (MappedVec.resize I false v n p) := by
  unfold MappedVec.resize; agree
theorem MappedVec.reserve_agrees (v : MappedVec σ) (n : Nat) : Agrees (MappedVec.reserve I true v n) (MappedVec.reserve I false v n) := by
  unfold MappedVec.reserve; agree
theorem MappedVec.step_agrees (v : MappedVec σ) (op : SVOp α) : Agrees (MappedVec.step I true zero v op) (MappedVec.step I false zero v op) := by
  cases op
  · exact MappedVec.modify_agrees I zero v _ _
  · exact MappedVec.insertElement_agrees I v _ _
  · exact MappedVec.eraseElement_agrees I v _
  · exact MappedVec.clear_agrees I v
  · exact MappedVec.resize_agrees I v _ _
  · exact MappedVec.reserve_agrees I v _
theorem MappedVec.run_agrees (v : MappedVec σ) (ops : List (SVOp α)) : Agrees (MappedVec.run I true zero v ops) (MappedVec.run I false zero v ops) := by
  induction ops generalizing v with
  | nil => exact Agrees.rfl
  | cons op ops ih => unfold MappedVec.run; exact (MappedVec.step_agrees I zero v op).bind fun v' => ih v'

variable (o : Orient)
theorem MappedMat.ctor_agrees (r c nz : Nat) : Agrees (MappedMat.ctor I true r c nz) (MappedMat.ctor I false r c nz) := by
  unfold MappedMat.ctor; agree
theorem MappedMat.get_agrees (v : MappedMat σ) (i j : Nat) : Agrees (MappedMat.get I true o zero v i j) (MappedMat.get I false o zero v i j) := by
  unfold MappedMat.get; agree
theorem MappedMat.step_agrees (v : MappedMat σ) (op : SMOp α) : Agrees (MappedMat.step I true o zero v op) (MappedMat.step I false o zero v op) := by
  cases op
  · show Agrees (MappedMat.modify I true o zero v _ _ _) (MappedMat.modify I false o zero v _ _ _); unfold MappedMat.modify; agree
  · show Agrees (MappedMat.insertElement I true o v _ _ _) (MappedMat.insertElement I false o v _ _ _); unfold MappedMat.insertElement; agree
  · show Agrees (MappedMat.eraseElement I true o v _ _) (MappedMat.eraseElement I false o v _ _); unfold MappedMat.eraseElement; agree
  · show Agrees (MappedMat.clear I true v) (MappedMat.clear I false v); unfold MappedMat.clear; agree
  · show Agrees (MappedMat.resize I true v _ _ _) (MappedMat.resize I false v _ _ _); unfold MappedMat.resize; agree
  · show Agrees (MappedMat.reserve I true v _) (MappedMat.reserve I false v _); unfold MappedMat.reserve; agree
theorem MappedMat.run_agrees (v : MappedMat σ) (ops : List (SMOp α)) : Agrees (MappedMat.run I true o zero v ops) (MappedMat.run I false o zero v ops) := by
  induction ops generalizing v with
  | nil => exact Agrees.rfl
  | cons op ops ih => unfold MappedMat.run; exact (MappedMat.step_agrees I zero o v op).bind fun v' => ih v'

variable (O : MapImpl τ σ) [MapAgrees O]
theorem MapMap.putEmpty_agrees (m : τ) (k : Nat) : Agrees (MapMap.putEmpty O I true m k) (MapMap.putEmpty O I false m k) := by
  unfold MapMap.putEmpty; agree
instance MapMap.putEmpty_agreesI (m : τ) (k : Nat) : AgreesI (MapMap.putEmpty O I true m k) (MapMap.putEmpty O I false m k) := ⟨MapMap.putEmpty_agrees I O m k⟩
theorem MapMap.ctor_agrees (r c : Nat) : Agrees (MapMap.ctor O I true o r c) (MapMap.ctor O I false o r c) := by
  unfold MapMap.ctor; agree
theorem MapMap.step_agrees (v : MapMap τ) (op : MapMapOp α) : Agrees (MapMap.step O I true o zero v op) (MapMap.step O I false o zero v op) := by
  cases op
  · show Agrees (MapMap.modify O I true o zero v _ _ _) (MapMap.modify O I false o zero v _ _ _); unfold MapMap.modify; agree
  · show Agrees (MapMap.insertElement O I true o v _ _ _) (MapMap.insertElement O I false o v _ _ _); unfold MapMap.insertElement; agree
  · show Agrees (MapMap.eraseElement O I true o v _ _) (MapMap.eraseElement O I false o v _ _); unfold MapMap.eraseElement; agree
  · show Agrees (MapMap.clear O I true o v) (MapMap.clear O I false o v); unfold MapMap.clear; agree
  · show Agrees (MapMap.resize O I true o v _ _ _) (MapMap.resize O I false o v _ _ _); unfold MapMap.resize; agree
theorem MapMap.run_agrees (v : MapMap τ) (ops : List (MapMapOp α)) : Agrees (MapMap.run O I true o zero v ops) (MapMap.run O I false o zero v ops) := by
  induction ops generalizing v with
  | nil => exact Agrees.rfl
  | cons op ops ih => unfold MapMap.run; exact (MapMap.step_agrees I zero o O v op).bind fun v' => ih v'
end

/-! ## Coordinate containers -/
section
variable [DecidableEq κ] [Add α]

/-- Sorting leaves nothing to sort. -/
theorem Coo.sort_sorted {d d' : Bool} {P : CooPar κ α} {v w : Coo κ α} (h : v.sort d P = .ok w) : w.sort d' P = .ok w := by
  unfold Coo.sort at h
  split at h
  · obtain ⟨p, h1, h⟩ := bind_eq_ok.1 h
    obtain ⟨s, h2, h⟩ := bind_eq_ok.1 h
    obtain ⟨u, h3, h⟩ := bind_eq_ok.1 h
    cases h
    unfold Coo.sort
    rw [if_neg (by simp)]
  · rename_i hn; cases h; unfold Coo.sort; rw [if_neg hn]

/-- `insert_element` on a container with nothing to sort. -/
theorem Coo.insert_agrees (P : CooPar κ α) (zero : α) (junk : Coo.Junk κ α) (v : Coo κ α) (k : κ) (t : α) (hs : v.sort true P = .ok v) :
    Agrees (v.insert true P zero junk k t) (v.insert false P zero junk k t) := by
  intro r h
  unfold Coo.insert at h ⊢
  obtain ⟨w, h1, h⟩ := bind_eq_ok.1 h
  simp only [if_true] at h1
  obtain ⟨q, h2, h1⟩ := bind_eq_ok.1 h1
  obtain ⟨u, h3, h1⟩ := bind_eq_ok.1 h1
  cases h1
  unfold Coo.find at h2
  rw [hs, bind_ok] at h2
  obtain ⟨x, h4, h2⟩ := bind_eq_ok.1 h2
  cases h2
  simp only [Bool.false_eq_true, if_false, bind_ok]
  exact Coo.append_agrees P zero junk v k t r h

theorem Coo.modify_agrees (P : CooPar κ α) (zero : α) (junk : Coo.Junk κ α) (v : Coo κ α) (k : κ) (f : α → α) :
    Agrees (v.modify true P zero junk k f) (v.modify false P zero junk k f) := by
  intro r h
  unfold Coo.modify at h ⊢
  obtain ⟨q, h1, h⟩ := bind_eq_ok.1 h
  rw [Coo.find_agrees P v k q h1, bind_ok]
  have hs : q.1.sort true P = .ok q.1 := by
    unfold Coo.find at h1
    obtain ⟨w, h2, h1⟩ := bind_eq_ok.1 h1
    obtain ⟨x, h3, h1⟩ := bind_eq_ok.1 h1
    cases h1
    exact Coo.sort_sorted h2
  revert h
  refine Agrees.bind ?_ (fun _ => ?_) r
  · split
    · exact (Coo.insert_agrees P zero junk q.1 k zero hs).bind fun _ => Agrees.rfl
    · exact Agrees.rfl
  · agree

/-- The operations of the coordinate containers other than `insert_element`. -/
def CooOp.notInsert : CooOp ι α → Prop
  | .insert _ _ => False
  | _ => True

theorem Coo.step_agrees (P : CooPar κ α) (kb : ι → κ) (zero : α) (junk : Coo.Junk κ α) (v : Coo κ α) (op : CooOp ι α)
    (h : op.notInsert ∨ v.sort true P = .ok v) :
    Agrees (v.step true P kb zero junk op) (v.step false P kb zero junk op) := by
  cases op
  · exact Coo.modify_agrees P zero junk v _ _
  · rcases h with h | h
    · cases h
    · exact Coo.insert_agrees P zero junk v _ _ h
  · exact Coo.append_agrees P zero junk v _ _
  · exact Coo.erase_agrees P v _
  · exact Coo.clear_agrees P v
  · exact Coo.reserve_agrees P zero junk v _ _
  · exact Coo.pushBack_agrees P zero junk v _ _
  · exact Coo.popBack_agrees P v
  · exact Coo.sort_agrees P v

/-- A history without `insert_element`. -/
def CoordVec.noInsert (ops : List (CoordVecOp α × Coo.Junk Nat α)) : Prop := ∀ i t j, (CoordVecOp.core (.insert i t), j) ∉ ops
/-- A history without `insert_element`. -/
def CoordMat.noInsert (ops : List (CoordMatOp α × Coo.Junk (Nat × Nat) α)) : Prop := ∀ p t j, (CoordMatOp.core (.insert p t), j) ∉ ops

theorem CooOp.notInsert_of {op : CooOp ι α} (h : ∀ i t, op ≠ .insert i t) : op.notInsert := by
  cases op <;> first | trivial | exact h _ _ rfl

theorem CoordVec.run_agrees (srt : List (Nat × α) → List (Nat × α)) (full : Bool) (IB : Nat) (zero : α) (v : CoordVec α)
    (ops : List (CoordVecOp α × Coo.Junk Nat α)) (h : CoordVec.noInsert ops) :
    Agrees (CoordVec.run srt full true IB zero v ops) (CoordVec.run srt full false IB zero v ops) := by
  induction ops generalizing v with
  | nil => exact Agrees.rfl
  | cons op ops ih =>
    unfold CoordVec.run
    refine Agrees.bind ?_ fun v' => ih v' fun i t j hm => h i t j (List.mem_cons_of_mem _ hm)
    obtain ⟨op, jk⟩ := op
    cases op with
    | resize n p => exact CoordVec.resize_agrees srt full IB zero jk v n p
    | core op =>
      have hs := fun P kb => Coo.step_agrees P kb zero jk v.coo op (.inl (CooOp.notInsert_of fun i t e => h i t jk (e ▸ List.mem_cons_self ..)))
      simp only [CoordVec.step]
      cases op <;> first | exact (hs _ _).bind fun _ => Agrees.rfl | exact Agrees.bind Agrees.check fun _ => (hs _ _).bind fun _ => Agrees.rfl

theorem CoordMat.run_agrees (srt : List ((Nat × Nat) × α) → List ((Nat × Nat) × α)) (full : Bool) (o : Orient) (IB : Nat) (zero : α) (v : CoordMat α)
    (ops : List (CoordMatOp α × Coo.Junk (Nat × Nat) α)) (h : CoordMat.noInsert ops) :
    Agrees (CoordMat.run srt full true o IB zero v ops) (CoordMat.run srt full false o IB zero v ops) := by
  induction ops generalizing v with
  | nil => exact Agrees.rfl
  | cons op ops ih =>
    unfold CoordMat.run
    refine Agrees.bind ?_ fun v' => ih v' fun i t j hm => h i t j (List.mem_cons_of_mem _ hm)
    obtain ⟨op, jk⟩ := op
    cases op with
    | resize r c p => exact CoordMat.resize_agrees srt full jk v r c p
    | core op =>
      exact Agrees.bind (Coo.step_agrees _ _ zero jk v.coo op (.inl (CooOp.notInsert_of fun i t e => h i t jk (e ▸ List.mem_cons_self ..)))) fun _ => Agrees.rfl
end

end Ublas
