import Verif.Model.Values
import Verif.Props.CompressedVector
import Verif.Props.CompressedMatrix
import Verif.Props.Coo
import Verif.Props.Mapped
import Verif.Props.VectorOfVector
import Verif.Props.VoVCoord
import Verif.Props.MapOfMaps
import Verif.Props.Dense
import Verif.Props.Packed
import Verif.Props.Banded
import Verif.Props.Symmetric
/-!
# C132: containers are values

Any program of container operations, copy constructions, assignments (self-assignment included) and swaps (self-swap included) over any number of variables of one
container type runs without a fault, and every variable is then indistinguishable from one that holds the denoted value: no two variables share storage.
-/
namespace Ublas
open Search SparseSpec Packed PackedSpec
namespace Values
variable {σ τ Op J α : Type}

/-- What the containers have to satisfy one operation at a time; `cp` says whether the copy constructor does. -/
structure Laws (cp : Prop) (O : Ops σ Op J) (Inv : σ → τ → Prop) (ok : τ → Op → Prop) (next : τ → Op → τ) : Prop where
  step : ∀ j v s o, Inv v s → ok s o → ∃ v', O.step j v o = .ok v' ∧ Inv v' (next s o)
  copy : cp → ∀ j v s, Inv v s → ∃ v1 v2, O.copy j v = .ok (v1, v2) ∧ Inv v1 s ∧ Inv v2 s
  assign : ∀ j v w s t, Inv v s → Inv w t → ∃ v', O.assign j v w = .ok v' ∧ Inv v' t
  selfAssign : ∀ v s, Inv v s → ∃ v', O.selfAssign v = .ok v' ∧ Inv v' s
  swap : ∀ v w s t, Inv v s → Inv w t → ∃ v' w', O.swap v w = .ok (v', w') ∧ Inv v' t ∧ Inv w' s
  selfSwap : ∀ v s, Inv v s → ∃ v', O.selfSwap v = .ok v' ∧ Inv v' s

theorem Laws.exec {cp : Prop} {O : Ops σ Op J} {Inv : σ → τ → Prop} {ok : τ → Op → Prop} {next : τ → Op → τ} (L : Laws cp O Inv ok next) (j : J) (o : ValOp Op)
    {e : Nat → σ} {s : Nat → τ} (h : ∀ x, Inv (e x) (s x)) (hl : ValSpec.legal ok s o)
    (hc : cp ∨ o.NoCopy) :
    ∃ e', exec O e j o = .ok e' ∧ ∀ x, Inv (e' x) (ValSpec.step next s o x) := by
  cases o with
  | op x o =>
    obtain ⟨v', e1, e2⟩ := L.step j _ _ o (h x) hl
    refine ⟨_, by simp only [Values.exec, e1, bind_ok]; rfl, fun z => ?_⟩
    simp only [put, ValSpec.step]; split
    · exact e2
    · exact h z
  | copy x y =>
    have hl : x ≠ y := hl
    have hc : cp := hc.resolve_right fun h => h
    obtain ⟨v1, v2, e1, e2, e3⟩ := L.copy hc j _ _ (h y)
    refine ⟨_, by simp only [Values.exec, e1, bind_ok]; rfl, fun z => ?_⟩
    simp only [put, ValSpec.step]; split
    · exact e3
    · split
      · rename_i _ hz; subst hz; exact e2
      · exact h z
  | assign x y =>
    by_cases hxy : x = y
    · subst hxy
      obtain ⟨v', e1, e2⟩ := L.selfAssign _ _ (h x)
      refine ⟨_, by simp only [Values.exec, if_true, e1, bind_ok]; rfl, fun z => ?_⟩
      simp only [put, ValSpec.step]; split
      · exact e2
      · exact h z
    · obtain ⟨v', e1, e2⟩ := L.assign j _ _ _ _ (h x) (h y)
      refine ⟨_, by simp only [Values.exec, if_neg hxy, e1, bind_ok]; rfl, fun z => ?_⟩
      simp only [put, ValSpec.step]; split
      · exact e2
      · exact h z
  | swap x y =>
    by_cases hxy : x = y
    · subst hxy
      obtain ⟨v', e1, e2⟩ := L.selfSwap _ _ (h x)
      refine ⟨_, by simp only [Values.exec, if_true, e1, bind_ok]; rfl, fun z => ?_⟩
      simp only [put, ValSpec.step]; split
      · exact e2
      · exact h z
    · obtain ⟨v', w', e1, e2, e3⟩ := L.swap _ _ _ _ (h x) (h y)
      refine ⟨_, by simp only [Values.exec, if_neg hxy, e1, bind_ok]; rfl, fun z => ?_⟩
      simp only [put, ValSpec.step]
      by_cases hzx : z = x
      · subst hzx; rw [if_neg hxy, if_pos rfl, if_pos rfl]; exact e2
      · by_cases hzy : z = y
        · subst hzy; rw [if_pos rfl, if_neg hzx, if_pos rfl]; exact e3
        · rw [if_neg hzy, if_neg hzx, if_neg hzx, if_neg hzy]; exact h z

theorem Laws.run {cp : Prop} {O : Ops σ Op J} {Inv : σ → τ → Prop} {ok : τ → Op → Prop} {next : τ → Op → τ} (L : Laws cp O Inv ok next) :
    ∀ (os : List (ValOp Op × J)) {e : Nat → σ} {s : Nat → τ}, (∀ x, Inv (e x) (s x)) → ValSpec.legalRun ok next s (os.map (·.1)) →
    (cp ∨ ∀ o ∈ os, o.1.NoCopy) → ∃ e', run O e os = .ok e' ∧ ∀ x, Inv (e' x) (ValSpec.run next s (os.map (·.1)) x)
  | [], e, _, h, _, _ => ⟨e, rfl, h⟩
  | o :: os, _, _, h, hl, hc => by
    obtain ⟨e1, g1, g2⟩ := L.exec o.2 o.1 h hl.1 (hc.imp id fun h => h o (by simp))
    obtain ⟨e2, g3, g4⟩ := L.run os g2 hl.2 (hc.imp id fun h o ho => h o (by simp [ho]))
    exact ⟨e2, by simp only [Values.run, g1, bind_ok, g3], g4⟩

/-! ## Arrays -/

theorem arrFill_ok (d a : List α) (h : d.length = a.length) : arrFill d a = .ok a := by
  obtain ⟨t, e1, e2, e3⟩ := loop_inv (f := fun k (d : List α) => (rd false a k >>= fun x => wr false d k x : M _)) (n := a.length) (s := d)
    (fun k t => t.length = a.length ∧ t.take k = a.take k) ⟨h, by simp⟩
    (by
      rintro k t hk ⟨g1, g2⟩
      have k2 : k < t.length := by omega
      refine ⟨t.set k a[k], by rw [rd_ok hk, bind_ok, wr_ok k2], by simpa using g1, ?_⟩
      rw [List.take_add_one, List.take_add_one]
      simp [List.take_set_of_le, k2, g2, hk])
  rw [List.take_length, ← e2, List.take_length] at e3
  unfold arrFill
  rw [← e3]; rw [← e3] at e1; exact e1

theorem arrCopy_ok (junk : Nat → α) (a : List α) : arrCopy junk a = .ok a := by
  unfold arrCopy
  split
  · exact arrFill_ok _ _ (by simp)
  · rename_i h
    have h : a.length = 0 := by omega
    rw [List.eq_nil_of_length_eq_zero h]

theorem arrAssign_ok (junk : Nat → α) (d a : List α) : arrAssign junk d a = .ok a :=
  arrFill_ok _ _ (CVec.length_resizeRaw _ _ _)

/-! ## compressed_vector, compressed_matrix -/

theorem cvCopy_ok {dbg : Bool} {IB : Nat} {v : CVec α} {s : Vec α} (h : CVec.Inv IB v s) (j : CVec.Junk α) : cvCopy dbg IB j v = .ok (v, v) := by
  obtain ⟨E, h⟩ := h
  simp only [cvCopy, arrCopy_ok, bind_ok, h.invariants dbg]

theorem cvAssign_ok {dbg : Bool} {IB : Nat} {w : CVec α} {t : Vec α} (h : CVec.Inv IB w t) (j : CVec.Junk α) (v : CVec α) :
    cvAssign dbg IB j v w = .ok w := by
  obtain ⟨E, h⟩ := h
  simp only [cvAssign, arrAssign_ok, bind_ok, h.invariants dbg]

theorem cv_laws (dbg : Bool) (IB : Nat) (zero : α) : Laws True (cv dbg IB zero) (CVec.Inv IB) cvlegal (cvstep zero) where
  step j v s o h hl := CVec.step_inv dbg IB zero j v s o h hl
  copy _ j v s h := ⟨v, v, cvCopy_ok h j, h, h⟩
  assign j v w s t _ h := ⟨w, cvAssign_ok h j v, h⟩
  selfAssign v s h := by
    refine ⟨v, ?_, h⟩
    obtain ⟨E, h⟩ := h
    simp only [cv, h.invariants dbg, bind_ok]
  swap v w s t h1 h2 := by
    refine ⟨w, v, ?_, h2, h1⟩
    obtain ⟨E, h⟩ := h2
    simp only [cv, cvSwap, exch, h.invariants dbg, bind_ok]
  selfSwap v s h := by
    refine ⟨v, ?_, h⟩
    obtain ⟨E, h⟩ := h
    simp only [cv, h.invariants dbg, bind_ok]

theorem cm_laws (dbg : Bool) (o : Orient) (IB : Nat) (zero : α) : Laws True (cm dbg o IB zero) (CMat.Inv o IB) (cmlegal o) (cmstep o zero) where
  step j v s p h hl := CMat.step_inv dbg o IB zero j v s p h hl
  copy _ j v s h := by
    refine ⟨v, v, ?_, h, h⟩
    obtain ⟨E, h, _⟩ := h
    simp only [cm, cmCopy, arrCopy_ok, bind_ok, h.invariants dbg]
  assign j v w s t _ h := by
    refine ⟨w, ?_, h⟩
    obtain ⟨E, h, _⟩ := h
    simp only [cm, cmAssign, arrAssign_ok, bind_ok, h.invariants dbg]
  selfAssign v s h := by
    refine ⟨v, ?_, h⟩
    obtain ⟨E, h, _⟩ := h
    simp only [cm, h.invariants dbg, bind_ok]
  swap v w s t h1 h2 := by
    refine ⟨w, v, ?_, h2, h1⟩
    obtain ⟨E, h, _⟩ := h2
    simp only [cm, cmSwap, exch, h.invariants dbg, bind_ok]
  selfSwap v s h := by
    refine ⟨v, ?_, h⟩
    obtain ⟨E, h, _⟩ := h
    simp only [cm, h.invariants dbg, bind_ok]

/-! ## coordinate_vector, coordinate_matrix -/

theorem cov_laws [AddCommMonoid α] (srt : List (Nat × α) → List (Nat × α)) (hsrt : CoordVec.Sorts srt) (full dbg : Bool) (IB : Nat) :
    Laws True (cov srt full dbg IB) (CoordVec.Inv srt full IB) CooSpec.vlegal CooSpec.vstep where
  step j v s p h hl := CoordVec.step_inv srt hsrt full dbg IB j v s p h hl
  copy _ j v s h := by
    refine ⟨v, v, ?_, h, h⟩
    obtain ⟨hs, A, hA, _⟩ := h
    rw [← hs] at hA
    simp only [cov, cooCopy, arrCopy_ok, bind_ok, hA.invariants dbg]
  assign j v w s t _ h := by
    refine ⟨w, ?_, h⟩
    obtain ⟨hs, A, hA, _⟩ := h
    rw [← hs] at hA
    simp only [cov, cooAssign, arrAssign_ok, bind_ok, hA.invariants dbg]
  selfAssign v s h := by
    refine ⟨v, ?_, h⟩
    obtain ⟨hs, A, hA, _⟩ := h
    rw [← hs] at hA
    simp only [cov, bind_ok, hA.invariants dbg]
  swap v w s t h1 h2 := by
    refine ⟨w, v, ?_, h2, h1⟩
    obtain ⟨hs, A, hA, _⟩ := h2
    rw [← hs] at hA
    simp only [cov, cooSwap, exch, bind_ok, hA.invariants dbg]
  selfSwap v s h := by
    refine ⟨v, ?_, h⟩
    obtain ⟨hs, A, hA, _⟩ := h
    rw [← hs] at hA
    simp only [cov, bind_ok, hA.invariants dbg]

theorem com_laws [AddCommMonoid α] (srt : List ((Nat × Nat) × α) → List ((Nat × Nat) × α)) (hsrt : CoordMat.Sorts srt) (full dbg : Bool) (o : Orient)
    (IB : Nat) : Laws True (com srt full dbg o IB) (CoordMat.Inv srt full o IB) (CooSpec.mlegal o) (CooSpec.mstep o) where
  step j v s p h hl := CoordMat.step_inv srt hsrt full dbg o IB j v s p h hl
  copy _ j v s h := by
    refine ⟨v, v, ?_, h, h⟩
    obtain ⟨h1, h2, A, hA, _⟩ := h
    rw [← h1, ← h2] at hA
    simp only [com, cooCopy, arrCopy_ok, bind_ok, hA.invariants dbg]
  assign j v w s t _ h := by
    refine ⟨w, ?_, h⟩
    obtain ⟨h1, h2, A, hA, _⟩ := h
    rw [← h1, ← h2] at hA
    simp only [com, cooAssign, arrAssign_ok, bind_ok, hA.invariants dbg]
  selfAssign v s h := by
    refine ⟨v, ?_, h⟩
    obtain ⟨h1, h2, A, hA, _⟩ := h
    rw [← h1, ← h2] at hA
    simp only [com, bind_ok, hA.invariants dbg]
  swap v w s t g1 g2 := by
    refine ⟨w, v, ?_, g2, g1⟩
    obtain ⟨h1, h2, A, hA, _⟩ := g2
    rw [← h1, ← h2] at hA
    simp only [com, cooSwap, exch, bind_ok, hA.invariants dbg]
  selfSwap v s h := by
    refine ⟨v, ?_, h⟩
    obtain ⟨h1, h2, A, hA, _⟩ := h
    rw [← h1, ← h2] at hA
    simp only [com, bind_ok, hA.invariants dbg]

/-! ## mapped_vector, mapped_matrix -/

/-- What the map has to satisfy. -/
structure MapValLaws {ρ : Type} (cp : Prop) (V : MapVal ρ J) (R : ρ → (Nat → Option α) → Prop) : Prop where
  copy : cp → ∀ j m s, R m s → ∃ m1 m2, V.copy j m = .ok (m1, m2) ∧ R m1 s ∧ R m2 s
  assign : ∀ dbg m a s t, R m s → R a t → ∃ m', V.assign dbg m a = .ok m' ∧ R m' t
  swap : ∀ a b s t, R a s → R b t → ∃ a' b', V.swap a b = .ok (a', b') ∧ R a' t ∧ R b' s

theorem stdMapVal_laws (J : Type) (R : List (Nat × α) → (Nat → Option α) → Prop) : MapValLaws True (stdMapVal α J) R where
  copy _ _ m _ h := ⟨m, m, rfl, h, h⟩
  assign _ _ a _ _ _ h := ⟨a, rfl, h⟩
  swap a b _ _ h1 h2 := ⟨b, a, rfl, h2, h1⟩

theorem mv_laws {ρ : Type} {cp : Prop} {I : MapImpl ρ α} {V : MapVal ρ J} {R : ρ → (Nat → Option α) → Prop} (L : MapLaws I R) (W : MapValLaws cp V R) (dbg : Bool) (zero : α) :
    Laws cp (mv I V dbg zero) (MappedVec.Inv R) vlegal (vstep zero) where
  step _ v s o h hl := MappedVec.step_inv L dbg zero v s o h hl
  copy hc j v s h := by
    obtain ⟨m1, m2, e1, e2, e3⟩ := W.copy hc j _ _ h.2.1
    exact ⟨{ v with map := m1 }, ⟨v.size, m2⟩, by simp only [mv, e1, bind_ok], ⟨h.1, e2, h.2.2⟩, ⟨h.1, e3, h.2.2⟩⟩
  assign j v w s t h1 h2 := by
    obtain ⟨m1, e1, e2⟩ := W.assign dbg _ _ _ _ h1.2.1 h2.2.1
    exact ⟨⟨w.size, m1⟩, by simp only [mv, e1, bind_ok], ⟨h2.1, e2, h2.2.2⟩⟩
  selfAssign v s h := ⟨v, rfl, h⟩
  swap v w s t h1 h2 := by
    obtain ⟨m1, m2, e1, e2, e3⟩ := W.swap _ _ _ _ h1.2.1 h2.2.1
    exact ⟨⟨w.size, m1⟩, ⟨v.size, m2⟩, by simp only [mv, exch, e1, bind_ok], ⟨h2.1, e2, h2.2.2⟩, ⟨h1.1, e3, h1.2.2⟩⟩
  selfSwap v s h := ⟨v, rfl, h⟩

theorem mapArrayVal_laws (zero : α) : MapValLaws False (mapArrayVal zero) MapArr.Repr where
  copy hc := hc.elim
  assign dbg m a s t h2 h4 := by
    obtain ⟨a1, r1, r2, r3, r4, _, _⟩ := MapArr.resize_spec dbg zero m a.size h2.1 h2.2.1
    have hb1 := h4.1
    have hb2 := h4.2.1
    obtain ⟨d, e1, e2, e3⟩ := loop_inv (f := fun j (d : List (Nat × α)) => (rd false a.data j >>= fun x => wr false d j x : M _))
      (n := a.size) (s := a1.data) (fun k t => t.length = a1.data.length ∧ t.take k = a.data.take k) (by simp)
      (by
        rintro k t hk ⟨g1, g2⟩
        have k1 : k < a.data.length := by omega
        have k2 : k < t.length := by omega
        refine ⟨t.set k a.data[k], by rw [rd_ok k1, bind_ok, wr_ok k2], by simpa using g1, ?_⟩
        rw [List.take_add_one, List.take_add_one]
        simp [List.take_set_of_le, k2, g2, k1])
    refine ⟨{ a1 with data := d }, by simp [mapArrayVal, MapArr.assignFrom, r1, e1], by simp [e2, r2], by simp; omega, ?_⟩
    have : ({ a1 with data := d } : MapArr α).ents = a.ents := by simp only [MapArr.ents, r3, e3]
    rw [this]; exact h4.2.2
  swap a b _ _ h1 h2 := ⟨b, a, rfl, h2, h1⟩

theorem mm_laws {ρ : Type} {cp : Prop} {I : MapImpl ρ α} {V : MapVal ρ J} {R : ρ → (Nat → Option α) → Prop} (L : MapLaws I R) (W : MapValLaws cp V R)
    (dbg : Bool) (o : Orient) (zero : α) : Laws cp (mm I V dbg o zero) (MappedMat.Inv R o) mlegal (mstep zero) where
  step _ v s p h hl := MappedMat.step_inv L dbg o zero v s p h hl
  copy hc j v s h := by
    obtain ⟨m1, m2, e1, e2, e3⟩ := W.copy hc j _ _ h.2.2.1
    exact ⟨{ v with map := m1 }, ⟨v.size1, v.size2, m2⟩, by simp only [mm, e1, bind_ok], ⟨h.1, h.2.1, e2, h.2.2.2⟩, ⟨h.1, h.2.1, e3, h.2.2.2⟩⟩
  assign j v w s t h1 h2 := by
    obtain ⟨m1, e1, e2⟩ := W.assign dbg _ _ _ _ h1.2.2.1 h2.2.2.1
    exact ⟨⟨w.size1, w.size2, m1⟩, by simp only [mm, e1, bind_ok], ⟨h2.1, h2.2.1, e2, h2.2.2.2⟩⟩
  selfAssign v s h := ⟨v, rfl, h⟩
  swap v w s t h1 h2 := by
    obtain ⟨m1, m2, e1, e2, e3⟩ := W.swap _ _ _ _ h1.2.2.1 h2.2.2.1
    exact ⟨⟨w.size1, w.size2, m1⟩, ⟨v.size1, v.size2, m2⟩, by simp only [mm, exch, e1, bind_ok], ⟨h2.1, h2.2.1, e2, h2.2.2.2⟩, ⟨h1.1, h1.2.1, e3, h1.2.2.2⟩⟩
  selfSwap v s h := ⟨v, rfl, h⟩

/-! ## generalized_vector_of_vector -/

theorem rowsFill_ok {f : Nat → CVec α → CVec α → M (CVec α)} (d a : List (CVec α)) (h : d.length = a.length)
    (hf : ∀ k y x, a[k]? = some x → f k y x = .ok x) : rowsFill f d a = .ok a := by
  obtain ⟨t, e1, e2, e3⟩ := loop_inv (f := fun k (d : List (CVec α)) => (rd false a k >>= fun x => rd false d k >>= fun y => f k y x >>= fun r => wr false d k r : M _))
    (n := a.length) (s := d) (fun k t => t.length = a.length ∧ t.take k = a.take k) ⟨h, by simp⟩
    (by
      rintro k t hk ⟨g1, g2⟩
      have k2 : k < t.length := by omega
      refine ⟨t.set k a[k], by rw [rd_ok hk, bind_ok, rd_ok k2, bind_ok, hf k _ _ (List.getElem?_eq_getElem hk), bind_ok, wr_ok k2], by simpa using g1, ?_⟩
      rw [List.take_add_one, List.take_add_one]
      simp [List.take_set_of_le, k2, g2, hk])
  rw [List.take_length, ← e2, List.take_length] at e3
  unfold rowsFill
  rw [← e3]; rw [← e3] at e1; exact e1

theorem vv_laws (dbg : Bool) (o : Orient) (IB : Nat) (zero : α) : Laws True (vv dbg o IB zero) (VoV.Inv o IB) vvlegal (vvstep zero) where
  step j v s p h hl := VoV.step_inv dbg o IB zero j.2 j.1 v s p h hl
  copy _ j v s h := by
    refine ⟨v, v, ?_, h, h⟩
    have hd : (if v.data.length ≠ 0 then
      rowsFill (fun k _ x => do let (_, n) ← cvCopy dbg IB (j.2 k) x; .ok n) ((List.range v.data.length).map j.1) v.data
      else .ok [] : M (List (CVec α))) = .ok v.data := by
      rw [if_pos (by rw [h.lines.1]; omega)]
      refine rowsFill_ok _ _ (by simp) fun k y x hx => ?_
      simp only [cvCopy_ok (h.lines.2 k x _ rfl hx), bind_ok]
    simp only [vv, vvCopy, hd, bind_ok, h.invariants dbg]
  assign j v w s t _ h := by
    refine ⟨w, ?_, h⟩
    have hd : rowsFill (fun k y x => cvAssign dbg IB (j.2 k) y x) (resizeRaw j.1 v.data w.data.length) w.data = .ok w.data :=
      rowsFill_ok _ _ (CVec.length_resizeRaw _ _ _) fun k y x hx => cvAssign_ok (h.lines.2 k x _ rfl hx) _ y
    simp only [vv, vvAssign, hd, bind_ok, h.invariants dbg]
  selfAssign v s h := ⟨v, by simp only [vv, h.invariants dbg, bind_ok], h⟩
  swap v w s t h1 h2 := ⟨w, v, by simp only [vv, vvSwap, exch, h2.invariants dbg, bind_ok], h2, h1⟩
  selfSwap v s h := ⟨v, by simp only [vv, h.invariants dbg, bind_ok], h⟩

/-! ## mapped_vector_of_mapped_vector, generalized_vector_of_vector of coordinate vectors -/

theorem mmm_laws {τ ρ : Type} {cp : Prop} {O : MapImpl τ ρ} {I : MapImpl ρ α} {V : MapVal τ J} {RO : τ → (Nat → Option ρ) → Prop}
    {RI : ρ → (Nat → Option α) → Prop} (LO : MapLaws O RO) (LI : MapLaws I RI) (W : MapValLaws cp V RO) (dbg : Bool) (o : Orient) (zero : α) :
    Laws cp (mmm O I V dbg o zero) (MapMap.Inv RO RI o) (fun s p => mlegal s p.toSM) (fun s p => mstep zero s p.toSM) where
  step _ v s p h hl := MapMap.step_inv LO LI dbg o zero v s p h hl
  copy hc j v s h := by
    obtain ⟨h1, h2, h3, S, h4, h5⟩ := h
    obtain ⟨m1, m2, e1, e2, e3⟩ := W.copy hc j _ _ h4
    exact ⟨{ v with map := m1 }, ⟨v.size1, v.size2, m2⟩, by simp only [mmm, e1, bind_ok], ⟨h1, h2, h3, S, e2, h5⟩, ⟨h1, h2, h3, S, e3, h5⟩⟩
  assign j v w s t g h := by
    obtain ⟨_, _, _, G, g4, _⟩ := g
    obtain ⟨h1, h2, h3, S, h4, h5⟩ := h
    obtain ⟨m1, e1, e2⟩ := W.assign dbg _ _ _ _ g4 h4
    exact ⟨⟨w.size1, w.size2, m1⟩, by simp only [mmm, e1, bind_ok], ⟨h1, h2, h3, S, e2, h5⟩⟩
  selfAssign v s h := ⟨v, rfl, h⟩
  swap v w s t g h := by
    obtain ⟨g1, g2, g3, G, g4, g5⟩ := g
    obtain ⟨h1, h2, h3, S, h4, h5⟩ := h
    obtain ⟨m1, m2, e1, e2, e3⟩ := W.swap _ _ _ _ g4 h4
    exact ⟨⟨w.size1, w.size2, m1⟩, ⟨v.size1, v.size2, m2⟩, by simp only [mmm, exch, e1, bind_ok], ⟨h1, h2, h3, S, e2, h5⟩, ⟨g1, g2, g3, G, e3, g5⟩⟩
  selfSwap v s h := ⟨v, rfl, h⟩

theorem crowsFill_ok {f : Nat → CoordVec α → CoordVec α → M (CoordVec α)} (d a : List (CoordVec α)) (h : d.length = a.length)
    (hf : ∀ k y x, a[k]? = some x → f k y x = .ok x) : crowsFill f d a = .ok a := by
  obtain ⟨t, e1, e2, e3⟩ := loop_inv (f := fun k (d : List (CoordVec α)) => (rd false a k >>= fun x => rd false d k >>= fun y => f k y x >>= fun r => wr false d k r : M _))
    (n := a.length) (s := d) (fun k t => t.length = a.length ∧ t.take k = a.take k) ⟨h, by simp⟩
    (by
      rintro k t hk ⟨g1, g2⟩
      have k2 : k < t.length := by omega
      refine ⟨t.set k a[k], by rw [rd_ok hk, bind_ok, rd_ok k2, bind_ok, hf k _ _ (List.getElem?_eq_getElem hk), bind_ok, wr_ok k2], by simpa using g1, ?_⟩
      rw [List.take_add_one, List.take_add_one]
      simp [List.take_set_of_le, k2, g2, hk])
  rw [List.take_length, ← e2, List.take_length] at e3
  unfold crowsFill
  rw [← e3]; rw [← e3] at e1; exact e1

theorem covCopy_ok [AddCommMonoid α] {srt : List (Nat × α) → List (Nat × α)} {full dbg : Bool} {IB : Nat} {v : CoordVec α} {s : CooSpec.VState α}
    (h : CoordVec.Inv srt full IB v s) (j : Coo.Junk Nat α) : (cov srt full dbg IB).copy j v = .ok (v, v) := by
  obtain ⟨hs, A, hA, _⟩ := h
  rw [← hs] at hA
  simp only [cov, cooCopy, arrCopy_ok, bind_ok, hA.invariants dbg]

theorem covAssign_ok [AddCommMonoid α] {srt : List (Nat × α) → List (Nat × α)} {full dbg : Bool} {IB : Nat} {w : CoordVec α} {s : CooSpec.VState α}
    (h : CoordVec.Inv srt full IB w s) (j : Coo.Junk Nat α) (v : CoordVec α) : (cov srt full dbg IB).assign j v w = .ok w := by
  obtain ⟨hs, A, hA, _⟩ := h
  rw [← hs] at hA
  simp only [cov, cooAssign, arrAssign_ok, bind_ok, hA.invariants dbg]

theorem vvc_laws [AddCommMonoid α] (P : VVCPar α) (hsrt : CoordVec.Sorts P.srt) (dbg : Bool) (o : Orient) :
    Laws True (vvc P dbg o) (VoVC.Inv P o) (CooSpec.vvclegal o) (CooSpec.vvcstep o) where
  step j v s p h hl := VoVC.step_inv hsrt dbg o j.2.1 j.2.2 j.1 v s p h hl
  copy _ j v s h := by
    refine ⟨v, v, ?_, h, h⟩
    have hd : (if v.data.length ≠ 0 then
      crowsFill (fun k _ x => do let (_, n) ← (cov P.srt P.full dbg P.IB).copy (j.2.1 k) x; .ok n) ((List.range v.data.length).map j.1) v.data
      else .ok [] : M (List (CoordVec α))) = .ok v.data := by
      rw [if_pos (by rw [h.lines.1]; omega)]
      refine crowsFill_ok _ _ (by simp) fun k y x hx => ?_
      simp only [covCopy_ok (h.lines.2 k x _ rfl hx), bind_ok]
    simp only [vvc, hd, bind_ok, h.invariants dbg]
  assign j v w s t _ h := by
    refine ⟨w, ?_, h⟩
    have hd : crowsFill (fun k y x => (cov P.srt P.full dbg P.IB).assign (j.2.1 k) y x) (resizeRaw j.1 v.data w.data.length) w.data = .ok w.data :=
      crowsFill_ok _ _ (CVec.length_resizeRaw _ _ _) fun k y x hx => covAssign_ok (h.lines.2 k x _ rfl hx) _ y
    simp only [vvc, hd, bind_ok, h.invariants dbg]
  selfAssign v s h := ⟨v, by simp only [vvc, h.invariants dbg, bind_ok], h⟩
  swap v w s t h1 h2 := ⟨w, v, by simp only [vvc, exch, h2.invariants dbg, bind_ok], h2, h1⟩
  selfSwap v s h := ⟨v, by simp only [vvc, h.invariants dbg, bind_ok], h⟩

/-! ## Dense and packed matrices -/

theorem dm_laws (dbg : Bool) (o : Orient) (zero : α) :
    Laws True (dm dbg o zero) (fun m s => m.WF ∧ DenseSpec.Implements dbg o m s) DenseSpec.legal (DenseSpec.step zero) where
  step j v s p h hl := step_implements dbg o zero j v s p h.1 h.2 hl
  copy _ j v s h := ⟨v, v, by simp only [dm, arrCopy_ok, bind_ok], h, h⟩
  assign j v w s t _ h := ⟨w, by simp only [dm, arrAssign_ok, bind_ok], h⟩
  selfAssign v s h := ⟨v, rfl, h⟩
  swap v w s t h1 h2 := ⟨w, v, rfl, h2, h1⟩
  selfSwap v s h := ⟨v, rfl, h⟩

theorem tm_laws [Zero α] [One α] (dbg : Bool) (t : Tri) (o : Orient) :
    Laws True (tm dbg t o) (fun (m : TMat α) s => TWF t m ∧ ShapeOk dbg t s.rows s.cols ∧ PackedSpec.Implements dbg t o m s) (PackedSpec.legal dbg t)
      (DenseSpec.step 0) where
  step j v s p h hl := tstep dbg t o j v s p h.1 h.2.1 h.2.2 hl
  copy _ j v s h := ⟨v, v, by simp only [tm, arrCopy_ok, bind_ok], h, h⟩
  assign j v w s t _ h := ⟨w, by simp only [tm, arrAssign_ok, bind_ok], h⟩
  selfAssign v s h := ⟨v, rfl, h⟩
  swap v w s t h1 h2 := ⟨w, v, rfl, h2, h1⟩
  selfSwap v s h := ⟨v, rfl, h⟩

theorem bm_laws [Zero α] (dbg : Bool) (o : Orient) :
    Laws True (bm dbg o) (fun (m : BMat α) s => BWF o m ∧ BandSpec.Implements dbg o m s) BandSpec.legal BandSpec.step where
  step j v s p h hl := bstep dbg o j v s p h.1 h.2 hl
  copy _ j v s h := ⟨v, v, by simp only [bm, arrCopy_ok, bind_ok], h, h⟩
  assign j v w s t _ h := ⟨w, by simp only [bm, arrAssign_ok, bind_ok], h⟩
  selfAssign v s h := ⟨v, rfl, h⟩
  swap v w s t h1 h2 := ⟨w, v, rfl, h2, h1⟩
  selfSwap v s h := ⟨v, rfl, h⟩

theorem sm_laws {step : (Nat → α) → SMat α → SOp α → M (SMat α)} {Inv : SMat α → SSpec α → Prop} {ok : SSpec α → SOp α → Prop}
    {next : SSpec α → SOp α → SSpec α} (hs : ∀ j v s o, Inv v s → ok s o → ∃ v', step j v o = .ok v' ∧ Inv v' (next s o)) :
    Laws True (sm step) Inv ok next where
  step := hs
  copy _ j v s h := ⟨v, v, by simp only [sm, arrCopy_ok, bind_ok], h, h⟩
  assign j v w s t _ h := ⟨w, by simp only [sm, arrAssign_ok, bind_ok], h⟩
  selfAssign v s h := ⟨v, rfl, h⟩
  swap v w s t h1 h2 := ⟨w, v, rfl, h2, h1⟩
  selfSwap v s h := ⟨v, rfl, h⟩

end Values
open Values

/-- **C132** compressed_vector.  Default-construct any number of vectors with any sizes and capacities, run any program of operations on single vectors, copy
constructions, assignments and swaps (of a vector with itself too): no fault in either build mode, and every variable then observes the vector it denotes. -/
theorem C132_compressed_vector {α : Type} (dbg : Bool) (IB : Nat) (zero : α) (n nz : Nat → Nat) (junk : Nat → CVec.Junk α)
    (prog : List (ValOp (CVOp α) × CVec.Junk α)) (hl : ValSpec.legalRun cvlegal (cvstep zero) (fun x => ⟨n x, fun _ => none⟩) (prog.map (·.1))) :
    ∃ e0 e, (∀ x, CVec.ctor dbg IB (junk x) (n x) (nz x) = .ok (e0 x)) ∧ run (cv dbg IB zero) e0 prog = .ok e ∧
      ∀ x, CVObserves dbg IB zero (e x) (ValSpec.run (cvstep zero) (fun x => ⟨n x, fun _ => none⟩) (prog.map (·.1)) x) := by
  choose e0 h0 h1 using fun x => CVec.inv_ctor dbg IB (junk x) (n x) (nz x)
  obtain ⟨e, h2, h3⟩ := (cv_laws dbg IB zero).run prog h1 hl (.inl trivial)
  exact ⟨e0, e, h0, h2, fun x => (h3 x).observes dbg IB zero⟩

/-- **C132** compressed_matrix. -/
theorem C132_compressed_matrix {α : Type} (dbg : Bool) (o : Orient) (IB : Nat) (zero : α) (r c nz : Nat → Nat) (junk : Nat → CMat.Junk α)
    (prog : List (ValOp (CMOp α) × CMat.Junk α))
    (hl : ValSpec.legalRun (cmlegal o) (cmstep o zero) (fun x => ⟨r x, c x, fun _ => none, 0⟩) (prog.map (·.1))) :
    ∃ e0 e, (∀ x, CMat.ctor dbg o IB (junk x) (r x) (c x) (nz x) = .ok (e0 x)) ∧ run (cm dbg o IB zero) e0 prog = .ok e ∧
      ∀ x, CMObserves dbg o IB zero (e x) (ValSpec.run (cmstep o zero) (fun x => ⟨r x, c x, fun _ => none, 0⟩) (prog.map (·.1)) x) := by
  choose e0 h0 h1 using fun x => CMat.inv_ctor dbg o IB (junk x) (r x) (c x) (nz x)
  obtain ⟨e, h2, h3⟩ := (cm_laws dbg o IB zero).run prog h1 hl (.inl trivial)
  exact ⟨e0, e, h0, h2, fun x => (h3 x).observes dbg o IB zero⟩

/-- **C132** coordinate_vector. -/
theorem C132_coordinate_vector {α : Type} [AddCommMonoid α] (srt : List (Nat × α) → List (Nat × α)) (hsrt : CoordVec.Sorts srt) (full dbg : Bool) (IB : Nat)
    (n nz : Nat → Nat) (junk : Nat → Coo.Junk Nat α) (prog : List (ValOp (CoordVecOp α) × Coo.Junk Nat α))
    (hl : ValSpec.legalRun CooSpec.vlegal CooSpec.vstep (fun x => ⟨n x, fun _ => none, true⟩) (prog.map (·.1))) :
    ∃ e0 e, (∀ x, CoordVec.ctor srt full dbg IB (junk x) (n x) (nz x) = .ok (e0 x)) ∧ run (cov srt full dbg IB) e0 prog = .ok e ∧
      ∀ x, CoordVec.Observes srt full dbg IB (e x) (ValSpec.run CooSpec.vstep (fun x => ⟨n x, fun _ => none, true⟩) (prog.map (·.1)) x) := by
  choose e0 h0 h1 using fun x => CoordVec.inv_ctor srt full dbg IB (junk x) (n x) (nz x)
  obtain ⟨e, h2, h3⟩ := (cov_laws srt hsrt full dbg IB).run prog h1 hl (.inl trivial)
  exact ⟨e0, e, h0, h2, fun x => (h3 x).observes hsrt dbg⟩

/-- **C132** coordinate_matrix. -/
theorem C132_coordinate_matrix {α : Type} [AddCommMonoid α] (srt : List ((Nat × Nat) × α) → List ((Nat × Nat) × α)) (hsrt : CoordMat.Sorts srt)
    (full dbg : Bool) (o : Orient) (IB : Nat) (r c nz : Nat → Nat) (junk : Nat → Coo.Junk (Nat × Nat) α)
    (prog : List (ValOp (CoordMatOp α) × Coo.Junk (Nat × Nat) α))
    (hl : ValSpec.legalRun (CooSpec.mlegal o) (CooSpec.mstep o) (fun x => ⟨r x, c x, fun _ => none, true⟩) (prog.map (·.1))) :
    ∃ e0 e, (∀ x, CoordMat.ctor srt full dbg (junk x) (r x) (c x) (nz x) = .ok (e0 x)) ∧ run (com srt full dbg o IB) e0 prog = .ok e ∧
      ∀ x, CoordMat.Observes srt full dbg o IB (e x) (ValSpec.run (CooSpec.mstep o) (fun x => ⟨r x, c x, fun _ => none, true⟩) (prog.map (·.1)) x) := by
  choose e0 h0 h1 using fun x => CoordMat.inv_ctor srt full dbg o IB (junk x) (r x) (c x) (nz x)
  obtain ⟨e, h2, h3⟩ := (com_laws srt hsrt full dbg o IB).run prog h1 hl (.inl trivial)
  exact ⟨e0, e, h0, h2, fun x => (h3 x).observes hsrt dbg⟩

/-- **C132** generalized_vector_of_vector of compressed vectors. -/
theorem C132_vector_of_vector {α : Type} (dbg : Bool) (o : Orient) (IB : Nat) (zero : α) (r c : Nat → Nat) (junk : Nat → RowsJunk α)
    (prog : List (ValOp (VVOp α) × RowsJunk α)) (hl : ValSpec.legalRun vvlegal (vvstep zero) (fun x => ⟨r x, c x, fun _ => none⟩) (prog.map (·.1))) :
    ∃ e0 e, (∀ x, VoV.ctor dbg o IB zero (junk x).2 (junk x).1 (r x) (c x) = .ok (e0 x)) ∧ run (vv dbg o IB zero) e0 prog = .ok e ∧
      ∀ x, VVObserves dbg o IB zero (e x) (ValSpec.run (vvstep zero) (fun x => ⟨r x, c x, fun _ => none⟩) (prog.map (·.1)) x) := by
  choose e0 h0 h1 using fun x => VoV.inv_ctor dbg o IB zero (junk x).2 (junk x).1 (r x) (c x)
  obtain ⟨e, h2, h3⟩ := (vv_laws dbg o IB zero).run prog h1 hl (.inl trivial)
  exact ⟨e0, e, h0, h2, fun x => (h3 x).observes dbg zero⟩

/-- The empty map after `reserve`. -/
theorem Values.mv_ctor {α ρ : Type} {I : MapImpl ρ α} {R : ρ → (Nat → Option α) → Prop} (L : MapLaws I R) (dbg : Bool) (n nz : Nat) :
    ∃ v, MappedVec.ctor I dbg n nz = .ok v ∧ MappedVec.Inv R v ⟨n, fun _ => none⟩ := by
  obtain ⟨m0, g1, g2⟩ := L.reserve dbg I.empty _ (min nz n) L.empty (fun K _ hm => by
    cases K with
    | nil => simp
    | cons a K => exact absurd rfl (hm a (by simp)))
  exact ⟨⟨n, m0⟩, by simp [MappedVec.ctor, g1], rfl, g2, fun _ _ => rfl⟩

theorem Values.mm_ctor {α ρ : Type} {I : MapImpl ρ α} {R : ρ → (Nat → Option α) → Prop} (L : MapLaws I R) (dbg : Bool) (o : Orient) (r c nz : Nat) :
    ∃ v, MappedMat.ctor I dbg r c nz = .ok v ∧ MappedMat.Inv R o v ⟨r, c, fun _ => none⟩ := by
  obtain ⟨m0, g1, g2⟩ := L.reserve dbg I.empty _ (MappedMat.restrictCapacity r c nz) L.empty (fun K _ hm => by
    cases K with
    | nil => simp
    | cons a K => exact absurd rfl (hm a (by simp)))
  exact ⟨⟨r, c, m0⟩, by simp [MappedMat.ctor, g1], rfl, rfl, by convert g2 using 1; funext k; simp only [MappedMat.flat]; exact ite_self _, fun _ _ _ => rfl⟩

/-- **C132** mapped_vector over std::map. -/
theorem C132_mapped_vector {α : Type} (dbg : Bool) (zero : α) (n nz : Nat → Nat) (prog : List (ValOp (SVOp α) × Unit))
    (hl : ValSpec.legalRun vlegal (vstep zero) (fun x => ⟨n x, fun _ => none⟩) (prog.map (·.1))) :
    ∃ e0 e, (∀ x, MappedVec.ctor stdMapImpl dbg (n x) (nz x) = .ok (e0 x)) ∧ run (mv stdMapImpl (stdMapVal α Unit) dbg zero) e0 prog = .ok e ∧
      ∀ x, MappedVec.Observes stdMapImpl dbg zero (e x) (ValSpec.run (vstep zero) (fun x => ⟨n x, fun _ => none⟩) (prog.map (·.1)) x) := by
  choose e0 h0 h1 using fun x => Values.mv_ctor (stdMap_laws (α := α)) dbg (n x) (nz x)
  obtain ⟨e, h2, h3⟩ := (mv_laws stdMap_laws (stdMapVal_laws Unit _) dbg zero).run prog h1 hl (.inl trivial)
  exact ⟨e0, e, h0, h2, fun x => (h3 x).observes stdMap_laws dbg zero⟩

/-- **C132** mapped_matrix over std::map. -/
theorem C132_mapped_matrix {α : Type} (dbg : Bool) (o : Orient) (zero : α) (r c nz : Nat → Nat) (prog : List (ValOp (SMOp α) × Unit))
    (hl : ValSpec.legalRun mlegal (mstep zero) (fun x => ⟨r x, c x, fun _ => none⟩) (prog.map (·.1))) :
    ∃ e0 e, (∀ x, MappedMat.ctor stdMapImpl dbg (r x) (c x) (nz x) = .ok (e0 x)) ∧ run (mm stdMapImpl (stdMapVal α Unit) dbg o zero) e0 prog = .ok e ∧
      ∀ x, MappedMat.Observes stdMapImpl dbg o zero (e x) (ValSpec.run (mstep zero) (fun x => ⟨r x, c x, fun _ => none⟩) (prog.map (·.1)) x) := by
  choose e0 h0 h1 using fun x => Values.mm_ctor (stdMap_laws (α := α)) dbg o (r x) (c x) (nz x)
  obtain ⟨e, h2, h3⟩ := (mm_laws stdMap_laws (stdMapVal_laws Unit _) dbg o zero).run prog h1 hl (.inl trivial)
  exact ⟨e0, e, h0, h2, fun x => (h3 x).observes stdMap_laws dbg o zero⟩

/-- **C132** mapped_vector_of_mapped_vector over std::map of std::map: the lines are copied with the outer map. -/
theorem C132_map_of_maps {α : Type} (dbg : Bool) (o : Orient) (zero : α) (r c : Nat → Nat) (prog : List (ValOp (MapMapOp α) × Unit))
    (hl : ValSpec.legalRun (fun s p => mlegal s p.toSM) (fun s p => mstep zero s p.toSM) (fun x => ⟨r x, c x, fun _ => none⟩) (prog.map (·.1))) :
    ∃ e0 e, (∀ x, MapMap.ctor stdMapImpl stdMapImpl dbg o (r x) (c x) = .ok (e0 x)) ∧
      run (mmm stdMapImpl stdMapImpl (stdMapVal (List (Nat × α)) Unit) dbg o zero) e0 prog = .ok e ∧
      ∀ x, MapMap.Observes stdMapImpl stdMapImpl o zero (e x)
        (ValSpec.run (fun s p => mstep zero s p.toSM) (fun x => ⟨r x, c x, fun _ => none⟩) (prog.map (·.1)) x) := by
  choose e0 h0 h1 using fun x => MapMap.ctor_inv (α := α) stdMap_laws stdMap_laws dbg o (r x) (c x)
  obtain ⟨e, h2, h3⟩ := (mmm_laws stdMap_laws stdMap_laws (stdMapVal_laws Unit _) dbg o zero).run prog h1 hl (.inl trivial)
  exact ⟨e0, e, h0, h2, fun x => (h3 x).observes stdMap_laws stdMap_laws o zero⟩

/-- **C132** generalized_vector_of_vector of coordinate vectors: sorted or not, a line is copied with everything it knows.  Excluded, as in C126: a preserving resize
to fewer lines that drops an unsorted line first. -/
theorem C132_vector_of_coordinate_vectors {α : Type} [AddCommMonoid α] (P : VVCPar α) (hsrt : CoordVec.Sorts P.srt) (dbg : Bool) (o : Orient) (r c : Nat → Nat)
    (junk : Nat → CRowsJunk α) (junk' : VoVC.Junk α) (prog : List (ValOp (VVCOp α) × CRowsJunk α))
    (hl : ValSpec.legalRun (CooSpec.vvclegal o) (CooSpec.vvcstep o) (fun x => ⟨r x, c x, fun _ => none, fun _ => true⟩) (prog.map (·.1))) :
    ∃ e0 e, (∀ x, VoVC.ctor P dbg o 0 (junk x).2.1 (junk x).2.2 (junk x).1 (r x) (c x) = .ok (e0 x)) ∧ run (vvc P dbg o) e0 prog = .ok e ∧
      ∀ x, CooSpec.VVCObserves P dbg o junk' (e x)
        (ValSpec.run (CooSpec.vvcstep o) (fun x => ⟨r x, c x, fun _ => none, fun _ => true⟩) (prog.map (·.1)) x) := by
  choose e0 h0 h1 using fun x => VoVC.inv_ctor hsrt dbg o (junk x).2.1 (junk x).2.2 (junk x).1 (r x) (c x)
  obtain ⟨e, h2, h3⟩ := (vvc_laws P hsrt dbg o).run prog h1 hl (.inl trivial)
  exact ⟨e0, e, h0, h2, fun x => (h3 x).observes hsrt dbg junk'⟩

/-- **C132** (proved part) mapped_vector over map_array: programs without copy constructions.  Missing: the copy constructor (C132_map_array_copy_refuted). -/
theorem C132_mapped_vector_map_array_partial {α : Type} (dbg : Bool) (zero : α) (n nz : Nat → Nat) (prog : List (ValOp (SVOp α) × (Nat → Nat × α)))
    (hc : ∀ o ∈ prog, o.1.NoCopy) (hl : ValSpec.legalRun vlegal (vstep zero) (fun x => ⟨n x, fun _ => none⟩) (prog.map (·.1))) :
    ∃ e0 e, (∀ x, MappedVec.ctor (mapArrayImpl zero) dbg (n x) (nz x) = .ok (e0 x)) ∧ run (mv (mapArrayImpl zero) (mapArrayVal zero) dbg zero) e0 prog = .ok e ∧
      ∀ x, MappedVec.Observes (mapArrayImpl zero) dbg zero (e x) (ValSpec.run (vstep zero) (fun x => ⟨n x, fun _ => none⟩) (prog.map (·.1)) x) := by
  choose e0 h0 h1 using fun x => Values.mv_ctor (mapArray_laws zero) dbg (n x) (nz x)
  obtain ⟨e, h2, h3⟩ := (mv_laws (mapArray_laws zero) (mapArrayVal_laws zero) dbg zero).run prog h1 hl (.inr hc)
  exact ⟨e0, e, h0, h2, fun x => (h3 x).observes (mapArray_laws zero) dbg zero⟩

/-- **C132** (proved part) mapped_matrix over map_array: programs without copy constructions. -/
theorem C132_mapped_matrix_map_array_partial {α : Type} (dbg : Bool) (o : Orient) (zero : α) (r c nz : Nat → Nat)
    (prog : List (ValOp (SMOp α) × (Nat → Nat × α)))
    (hc : ∀ o ∈ prog, o.1.NoCopy) (hl : ValSpec.legalRun mlegal (mstep zero) (fun x => ⟨r x, c x, fun _ => none⟩) (prog.map (·.1))) :
    ∃ e0 e, (∀ x, MappedMat.ctor (mapArrayImpl zero) dbg (r x) (c x) (nz x) = .ok (e0 x)) ∧
      run (mm (mapArrayImpl zero) (mapArrayVal zero) dbg o zero) e0 prog = .ok e ∧
      ∀ x, MappedMat.Observes (mapArrayImpl zero) dbg o zero (e x) (ValSpec.run (mstep zero) (fun x => ⟨r x, c x, fun _ => none⟩) (prog.map (·.1)) x) := by
  choose e0 h0 h1 using fun x => Values.mm_ctor (mapArray_laws zero) dbg o (r x) (c x) (nz x)
  obtain ⟨e, h2, h3⟩ := (mm_laws (mapArray_laws zero) (mapArrayVal_laws zero) dbg o zero).run prog h1 hl (.inr hc)
  exact ⟨e0, e, h0, h2, fun x => (h3 x).observes (mapArray_laws zero) dbg o zero⟩

/-- **C132** matrix. -/
theorem C132_matrix {α : Type} (dbg : Bool) (o : Orient) (zero : α) (r c : Nat → Nat) (junk : Nat → Nat → α) (prog : List (ValOp (Dense.Op α) × (Nat → α)))
    (hl : ValSpec.legalRun DenseSpec.legal (DenseSpec.step zero) (fun x => ⟨r x, c x, fun _ _ => none⟩) (prog.map (·.1))) :
    ∃ e, run (dm dbg o zero) (fun x => Dense.mk' (junk x) o (r x) (c x)) prog = .ok e ∧
      ∀ x, DenseSpec.Implements dbg o (e x) (ValSpec.run (DenseSpec.step zero) (fun x => ⟨r x, c x, fun _ _ => none⟩) (prog.map (·.1)) x) := by
  obtain ⟨e, h2, h3⟩ := (dm_laws dbg o zero).run prog (fun x => C04_initial dbg o (junk x) (r x) (c x)) hl (.inl trivial)
  exact ⟨e, h2, fun x => (h3 x).2⟩

/-- **C132** triangular_matrix (all kinds), shapes as in C08. -/
theorem C132_triangular_matrix {α : Type} [Zero α] [One α] (dbg : Bool) (t : Tri) (o : Orient) (r c : Nat → Nat) (junk : Nat → Nat → α)
    (hs : ∀ x, ShapeOk dbg t (r x) (c x)) (prog : List (ValOp (Dense.Op α) × (Nat → α)))
    (hl : ValSpec.legalRun (PackedSpec.legal dbg t) (DenseSpec.step 0) (fun x => ⟨r x, c x, fun _ _ => none⟩) (prog.map (·.1))) :
    ∃ e0 e, (∀ x, TMat.make dbg t (junk x) (r x) (c x) = .ok (e0 x)) ∧ run (tm dbg t o) e0 prog = .ok e ∧
      ∀ x, PackedSpec.Implements dbg t o (e x) (ValSpec.run (DenseSpec.step 0) (fun x => ⟨r x, c x, fun _ _ => none⟩) (prog.map (·.1)) x) := by
  choose e0 h0 h1 h2 using fun x => C07_initial dbg t o (junk x) (r x) (c x) (hs x)
  obtain ⟨e, h3, h4⟩ := (tm_laws dbg t o).run prog (fun x => ⟨h1 x, hs x, h2 x⟩) hl (.inl trivial)
  exact ⟨e0, e, h0, h3, fun x => (h4 x).2.2⟩

/-- **C132** banded_matrix (resizes as in C11). -/
theorem C132_banded_matrix {α : Type} [Zero α] (dbg : Bool) (o : Orient) (r c l u : Nat → Nat) (junk : Nat → Nat → α)
    (prog : List (ValOp (BMat.Op α) × (Nat → α)))
    (hl : ValSpec.legalRun BandSpec.legal BandSpec.step (fun x => ⟨r x, c x, l x, u x, fun _ _ => none⟩) (prog.map (·.1))) :
    ∃ e, run (bm dbg o) (fun x => BMat.make o (junk x) (r x) (c x) (l x) (u x)) prog = .ok e ∧
      ∀ x, BandSpec.Implements dbg o (e x) (ValSpec.run BandSpec.step (fun x => ⟨r x, c x, l x, u x, fun _ _ => none⟩) (prog.map (·.1)) x) := by
  have h0 : ∀ x, BWF o (BMat.make o (junk x) (r x) (c x) (l x) (u x)) ∧
      BandSpec.Implements dbg o (BMat.make o (junk x) (r x) (c x) (l x) (u x)) ⟨r x, c x, l x, u x, fun _ _ => none⟩ := fun x =>
    ⟨by simp [BWF, BMat.make], by simpa [BMat.run, BandSpec.run] using C11_history dbg o (r x) (c x) (l x) (u x) (junk x) [] trivial⟩
  obtain ⟨e, h3, h4⟩ := (bm_laws dbg o).run prog h0 hl (.inl trivial)
  exact ⟨e, h3, fun x => (h4 x).2⟩

/-- **C132** symmetric_matrix. -/
theorem C132_symmetric_matrix {α : Type} [Zero α] (dbg : Bool) (t : Tri) (hk : t.kind = .lower) (o : Orient) (n : Nat → Nat) (junk : Nat → Nat → α)
    (prog : List (ValOp (SOp α) × (Nat → α))) (hl : ValSpec.legalRun slegal sstep (fun x => ⟨n x, fun _ _ => none⟩) (prog.map (·.1))) :
    ∃ e0 e, (∀ x, SMat.make dbg t (junk x) (n x) = .ok (e0 x)) ∧ run (sm fun j m p => m.step dbg t o j p) e0 prog = .ok e ∧
      ∀ x, SImplements dbg t o (e x) (ValSpec.run sstep (fun x => ⟨n x, fun _ _ => none⟩) (prog.map (·.1)) x) := by
  obtain ⟨e, h3, h4⟩ := (sm_laws fun j v s p h hl => sstep_inv dbg t hk o j v s p h hl).run prog
    (fun x => fresh_inv id t o (n x) ((List.range (psize t (n x) (n x))).map (junk x)) (by simp)) hl (.inl trivial)
  exact ⟨_, e, fun x => by simp [SMat.make, packedSize_eq (fit_lower dbg t hk (n x) (n x))], h3, fun x => hinv_simplements dbg t hk o _ _ (h4 x)⟩

/-- **C132** hermitian_matrix, `erase_element` at stored positions only (C10_erase_refuted). -/
theorem C132_hermitian_matrix_partial {α : Type} [Zero α] (conj : α → α) (hcc : ∀ x, conj (conj x) = x) (hc0 : conj 0 = 0) (dbg : Bool) (t : Tri)
    (hk : t.kind = .lower) (o : Orient) (n : Nat → Nat) (junk : Nat → Nat → α)
    (prog : List (ValOp (SOp α) × (Nat → α))) (hl : ValSpec.legalRun (hlegal false t) (hstep conj) (fun x => ⟨n x, fun _ _ => none⟩) (prog.map (·.1))) :
    ∃ e0 e, (∀ x, SMat.make dbg t (junk x) (n x) = .ok (e0 x)) ∧ run (sm fun j m p => m.hstep conj dbg t o j p) e0 prog = .ok e ∧
      ∀ x, HImplements conj dbg t o (e x) (ValSpec.run (hstep conj) (fun x => ⟨n x, fun _ _ => none⟩) (prog.map (·.1)) x) := by
  obtain ⟨e, h3, h4⟩ := (sm_laws fun j v s p h hl => hstep_inv conj hcc hc0 dbg t hk o j v s p h hl).run prog
    (fun x => fresh_inv conj t o (n x) ((List.range (psize t (n x) (n x))).map (junk x)) (by simp)) hl (.inl trivial)
  exact ⟨_, e, fun x => by simp [SMat.make, packedSize_eq (fit_lower dbg t hk (n x) (n x))], h3, fun x => hinv_implements conj hcc dbg t hk o _ _ (h4 x)⟩

/-- **C132** refuted for map_array: `v [2] = 20; mapped_vector<int, map_array> w (v);` leaves neither `v` nor `w` with an element 2, because the copy constructor of
map_array copies the other way round (storage_sparse.hpp:249). -/
theorem C132_map_array_copy_refuted (dbg : Bool) :
    ∃ (prog : List (ValOp (SVOp Int) × (Nat → Nat × Int))) (e : Nat → MappedVec (MapArr Int)),
      ValSpec.legalRun vlegal (vstep 0) (fun _ => ⟨5, fun _ => none⟩) (prog.map (·.1)) ∧
      run (mv (mapArrayImpl 0) (mapArrayVal 0) dbg 0) (fun _ => ⟨5, (mapArrayImpl 0).empty⟩) prog = .ok e ∧
      (ValSpec.run (vstep 0) (fun _ => ⟨5, fun _ => none⟩) (prog.map (·.1)) 0).val 2 = some 20 ∧
      (ValSpec.run (vstep 0) (fun _ => ⟨5, fun _ => none⟩) (prog.map (·.1)) 1).val 2 = some 20 ∧
      (e 0).findElement (mapArrayImpl 0) 2 = .ok none ∧ (e 1).findElement (mapArrayImpl 0) 2 = .ok none := by
  refine ⟨[(.op 0 (.insert 2 20), fun _ => (0, 0)), (.copy 1 0, fun _ => (4, 9))],
    put (put (put (fun _ => ⟨5, MapArr.empty⟩) 0 ⟨5, ⟨2, 1, [(2, 20), (0, 0)]⟩⟩) 0 ⟨5, ⟨2, 1, [(4, 9), (0, 0)]⟩⟩) 1 ⟨5, ⟨1, 1, [(4, 9)]⟩⟩, ?_, ?_, rfl, rfl, ?_, ?_⟩
  · exact ⟨⟨by decide, rfl⟩, show 1 ≠ 0 by decide, trivial⟩
  · cases dbg <;> rfl
  · decide
  · decide

/-- A program with a copy, an assignment, both self-operations and a swap. -/
def C132_demo : List (ValOp (CVOp Int) × CVec.Junk Int) :=
  [(.op 0 (.insert 3 30), fun _ => 7, fun _ => 8), (.copy 1 0, fun _ => 7, fun _ => 8), (.op 1 (.modify 3 (· + 1)), fun _ => 7, fun _ => 8),
   (.assign 2 1, fun _ => 7, fun _ => 8), (.assign 2 2, fun _ => 7, fun _ => 8), (.op 2 (.pushBack 4 5), fun _ => 7, fun _ => 8),
   (.swap 0 2, fun _ => 7, fun _ => 8), (.swap 1 1, fun _ => 7, fun _ => 8)]

example : ValSpec.legalRun cvlegal (cvstep 0) (fun x => ⟨if x = 2 then 1 else 5, fun _ => none⟩) (C132_demo.map (·.1)) ∧
    (ValSpec.run (cvstep 0) (fun x => ⟨if x = 2 then 1 else 5, fun _ => none⟩) (C132_demo.map (·.1)) 0).val 4 = some 5 ∧
    (ValSpec.run (cvstep 0) (fun x => ⟨if x = 2 then 1 else 5, fun _ => none⟩) (C132_demo.map (·.1)) 0).val 3 = some 31 ∧
    (ValSpec.run (cvstep 0) (fun x => ⟨if x = 2 then 1 else 5, fun _ => none⟩) (C132_demo.map (·.1)) 1).val 3 = some 31 ∧
    (ValSpec.run (cvstep 0) (fun x => ⟨if x = 2 then 1 else 5, fun _ => none⟩) (C132_demo.map (·.1)) 2).val 3 = some 30 := by
  refine ⟨⟨⟨by decide, rfl⟩, by simp [ValSpec.legal], by simp [ValSpec.legal, ValSpec.step, cvstep, cvlegal], trivial, trivial, ⟨by decide, ?_⟩, trivial, trivial, trivial⟩,
    by simp [C132_demo, ValSpec.run, ValSpec.step, cvstep], by simp [C132_demo, ValSpec.run, ValSpec.step, cvstep], by simp [C132_demo, ValSpec.run, ValSpec.step, cvstep],
    by simp [C132_demo, ValSpec.run, ValSpec.step, cvstep]⟩
  intro j hj
  simp [ValSpec.step, cvstep] at hj
  by_contra hc
  exact hj (by rw [if_neg (by omega), if_neg (by omega)])

/-- Two matrices of coordinate vectors; the copy is unsorted in the line the original was, and each goes its own way. -/
def C132_vvc_demo : List (ValOp (VVCOp Int)) :=
  [.op 0 (.append 1 1 40), .op 0 (.append 1 0 10), .copy 1 0, .op 1 (.append 1 1 2), .op 0 .sort, .swap 0 1, .assign 2 0, .op 2 (.erase 1 0)]

example : ValSpec.legalRun (CooSpec.vvclegal .row) (CooSpec.vvcstep .row) (fun _ => ⟨3, 2, fun _ => none, fun _ => true⟩) C132_vvc_demo ∧
    (ValSpec.run (CooSpec.vvcstep .row) (fun _ => ⟨3, 2, fun _ => none, fun _ => true⟩) C132_vvc_demo 0).val (1, 1) = some 42 ∧
    (ValSpec.run (CooSpec.vvcstep .row) (fun _ => ⟨3, 2, fun _ => none, fun _ => true⟩) C132_vvc_demo 1).val (1, 1) = some 40 ∧
    (ValSpec.run (CooSpec.vvcstep .row) (fun _ => ⟨3, 2, fun _ => none, fun _ => true⟩) C132_vvc_demo 2).val (1, 0) = none := by
  refine ⟨?_, by decide, by decide, by decide⟩
  simp [C132_vvc_demo, ValSpec.legalRun, ValSpec.legal, ValSpec.step, CooSpec.vvclegal, CooSpec.vvcstep]

end Ublas
