import Verif.Lemmas.Storage
/-! # C16: storage arrays have value semantics and no memory errors -/
namespace Ublas
open Storage StorageSpec
variable {α : Type}

namespace Storage

/-- Contents agree with the (partly unspecified) specification. -/
def Agrees (c : Nat → Option (List α)) (e : Env α) : Prop :=
  ∀ x, (e x = none ↔ c x = none) ∧ ∀ l l', c x = some l → e x = some l' →
    l.length = l'.length ∧ ∀ (i : Nat) (w : α), l'[i]? = some (some w) → l[i]? = some w

theorem Agrees.upd {c : Nat → Option (List α)} {e : Env α} (h : Agrees c e) (x : Nat) (l : List α) (l' : List (Option α))
    (hl : l.length = l'.length) (hv : ∀ (i : Nat) (w : α), l'[i]? = some (some w) → l[i]? = some w) :
    Agrees (setVar c x (some l)) (StorageSpec.upd e x (some l')) := by
  intro y
  by_cases hy : y = x
  · subst hy
    refine ⟨by simp [StorageSpec.upd, setVar], ?_⟩
    intro a b ha hb
    simp only [setVar, StorageSpec.upd, if_true, Option.some.injEq] at ha hb
    subst ha hb; exact ⟨hl, hv⟩
  · simpa [setVar, StorageSpec.upd, hy] using h y

theorem Agrees.get {c : Nat → Option (List α)} {e : Env α} (h : Agrees c e) {x : Nat} (hx : e x ≠ none) :
    ∃ l l', c x = some l ∧ e x = some l' ∧ l.length = l'.length ∧ ∀ (i : Nat) (w : α), l'[i]? = some (some w) → l[i]? = some w := by
  cases he : e x with
  | none => exact absurd he hx
  | some l' =>
    cases hc : c x with
    | none => rw [(h x).1.2 hc] at he; simp at he
    | some l => exact ⟨l, l', rfl, rfl, (h x).2 l l' hc he⟩

theorem setVar_comm_eq {β : Type} (f : Nat → Option β) (x : Nat) : setVar f x (f x) = f := by
  funext y; simp only [setVar]; split
  · simp_all
  · rfl

theorem rep_write {s : St α} {c} (r : Rep s c) (x : Nat) (a : UArr) (l : List α) (hx : s.var x = some a)
    (hc : c x = some l) (p : Nat) (hp : a.ptr = some p) (l2 : List α) (hl : l2.length = l.length) (hne : l ≠ [])
    (h' : Heap α) (hn : h'.next = s.heap.next) (hb : ∀ q, h'.blk q = if q = p then some l2 else s.heap.blk q) :
    Repl s.heap h' ((s.var x).bind UArr.ptr) a l2 := by
  obtain ⟨l0, h0, hok⟩ := r.ok hx
  rw [hc] at h0; cases h0
  have hbp := hok.blk hp
  refine ⟨⟨by rw [hok.1, hl], .inr ⟨by rintro rfl; simp at hl; exact hne (List.eq_nil_of_length_eq_zero hl.symm), p, hp, by simp [hb]⟩⟩, ?_, ?_, ?_, ?_⟩
  · intro q h1 _; simp only [hx, Option.bind_some, hp, ne_eq, Option.some.injEq] at h1
    rw [hb, if_neg (fun e => h1 e.symm)]
  · intro q h1 h2; simp only [hx, Option.bind_some] at h1; exact absurd h1 h2
  · intro q h1; left; simp [hx, h1]
  · intro q hq; rw [hn] at hq; rw [hb, if_neg (by have := r.fresh.lt hbp; omega)]; exact r.fresh q hq

theorem step_sound (dbg : Bool) (zero : α) (junk : Nat → α) (s : St α) (c) (e : Env α) (op : Op α)
    (r : Rep s c) (ha : Agrees c e) (hl : StorageSpec.legal e op) :
    ∃ s' c', Storage.step dbg zero junk s op = .ok s' ∧ Rep s' c' ∧ Agrees c' (StorageSpec.step e op) := by
  have getv : ∀ x, e x ≠ none → ∃ a l l', s.var x = some a ∧ ArrOK s.heap a l ∧ c x = some l ∧ e x = some l' ∧
      l.length = l'.length ∧ ∀ (i : Nat) (w : α), l'[i]? = some (some w) → l[i]? = some w := by
    intro x hx
    obtain ⟨l, l', h1, h2, h3⟩ := ha.get hx
    obtain ⟨a, h4, h5⟩ := r.livev x l h1
    exact ⟨a, l, l', h4, h5, h1, h2, h3⟩
  have deadv : ∀ x, e x = none → s.var x = none := fun x hx => r.dead x ((ha x).1.1 hx)
  cases op with
  | ctor x n =>
    obtain ⟨a, h', l, h1, h2, h3⟩ := ctor_repl s.heap r.fresh junk n
    refine ⟨_, _, by simp [Storage.step, h1], r.replace x h' a l (by simpa [deadv x hl] using h2), ?_⟩
    exact ha.upd x l _ (by simp [h3]) (by intro i w hw; simp [List.getElem?_replicate] at hw)
  | ctorInit x n v =>
    obtain ⟨a, h', h1, h2⟩ := ctorInit_repl s.heap r.fresh junk n v
    refine ⟨_, _, by simp [Storage.step, h1], r.replace x h' a _ (by simpa [deadv x hl] using h2), ?_⟩
    exact ha.upd x _ _ (by simp) (by intro i w hw; simp [List.getElem?_replicate] at hw ⊢; exact hw)
  | copyCtor x y =>
    obtain ⟨b, l, l', q1, q2, q3, q4, q5, q6⟩ := getv y hl.2
    obtain ⟨a, h', h1, h2⟩ := copyCtor_repl s.heap r.fresh junk b l q2
    refine ⟨_, _, by simp [Storage.step, live, q1, h1], r.replace x h' a l (by simpa [deadv x hl.1] using h2), ?_⟩
    simp only [StorageSpec.step, q4]
    exact ha.upd x _ _ q5 q6
  | moveCtor x y =>
    obtain ⟨b, l, l', q1, q2, q3, q4, q5, q6⟩ := getv y hl.2
    have hxy : x ≠ y := by rintro rfl; exact hl.2 hl.1
    have hx := deadv x hl.1
    refine ⟨_, setVar (setVar c x (some l)) y (some []), by simp [Storage.step, live, q1]; rfl, ?_, ?_⟩
    · refine ⟨?_, ?_, ?_, ?_, r.fresh⟩
      · intro z hz; simp only [setVar] at hz ⊢; split at hz
        · simp at hz
        split at hz
        · simp at hz
        · rename_i h1 h2; simp only [h1, h2, if_false]; exact r.dead z hz
      · intro z lz hz; simp only [setVar] at hz ⊢; split at hz
        · rename_i h1; simp only [Option.some.injEq] at hz; subst hz
          exact ⟨⟨0, none⟩, by simp [h1], ⟨rfl, .inl ⟨rfl, rfl⟩⟩⟩
        split at hz
        · rename_i h1 h2; simp only [Option.some.injEq] at hz; subst hz
          exact ⟨b, by simp [h2, hxy], q2⟩
        · rename_i h1 h2; simp only [h1, h2, if_false]; exact r.livev z lz hz
      · intro u v a b' p h1 h2 h3 h4
        simp only [setVar] at h1 h2
        by_cases hu : u = y
        · simp only [hu, if_true, Option.some.injEq] at h1; subst h1; simp at h3
        by_cases hv : v = y
        · simp only [hv, if_true, Option.some.injEq] at h2; subst h2; simp at h4
        simp only [hu, hv, if_false] at h1 h2
        by_cases hu' : u = x
        · by_cases hv' : v = x
          · rw [hu', hv']
          · simp only [hu', hv', if_true, if_false, Option.some.injEq] at h1 h2
            subst h1; exact absurd (r.inj y v b b' p q1 h2 h3 h4).symm hv
        · by_cases hv' : v = x
          · simp only [hu', hv', if_true, if_false, Option.some.injEq] at h1 h2
            subst h2; exact absurd (r.inj u y a b p h1 q1 h3 h4) hu
          · simp only [hu', hv', if_false] at h1 h2
            exact r.inj u v a b' p h1 h2 h3 h4
      · intro p hp
        obtain ⟨z, a, h1, h2⟩ := r.noleak p hp
        by_cases hz : z = y
        · subst hz; rw [q1] at h1; cases h1
          exact ⟨x, b, by simp [setVar, hxy], h2⟩
        · have : z ≠ x := by rintro rfl; rw [hx] at h1; simp at h1
          exact ⟨z, a, by simp [setVar, hz, this, h1], h2⟩
    · simp only [StorageSpec.step, q4]
      exact (ha.upd x l l' q5 q6).upd y [] [] rfl (by simp)
  | dtor x =>
    obtain ⟨a, l, l', q1, q2, q3, q4, q5, q6⟩ := getv x hl
    obtain ⟨h', e1, hb, hn⟩ : ∃ h', dtor s.heap a = .ok h' ∧
        (∀ q, h'.blk q = if a.ptr = some q then none else s.heap.blk q) ∧ h'.next = s.heap.next := by
      rcases q2.2 with ⟨rfl, hp⟩ | ⟨hne, p, hp, hb⟩
      · have := q2.1; simp at this
        exact ⟨s.heap, by simp [dtor, this], by simp [hp], rfl⟩
      · refine ⟨⟨s.heap.next, fun q => if q = p then none else s.heap.blk q⟩, by simp [dtor, hp, q2.1, hne, Heap.dealloc, hb], ?_, rfl⟩
        intro q; simp only [hp, Option.some.injEq]
        by_cases hq : q = p
        · simp [hq]
        · have : ¬ p = q := fun e => hq e.symm
          simp [hq, this]
    have key : ∀ y b p, y ≠ x → s.var y = some b → b.ptr = some p → a.ptr ≠ some p := by
      intro y b p hy h1 h2 h3; exact hy (r.inj y x b a p h1 q1 h2 h3)
    refine ⟨_, setVar c x none, by simp [Storage.step, live, q1, e1]; rfl, ⟨?_, ?_, ?_, ?_, ?_⟩, ?_⟩
    · intro y hy; simp only [setVar] at hy ⊢; split
      · rfl
      · rename_i h1; simp only [h1, if_false] at hy; exact r.dead y hy
    · intro y ly hy
      by_cases h1 : y = x
      · simp [setVar, h1] at hy
      · simp only [setVar, h1, if_false] at hy ⊢
        obtain ⟨b, h2, h3⟩ := r.livev y ly hy
        exact ⟨b, h2, h3.frame fun p hp => by rw [hb, if_neg (key y b p h1 h2 hp)]⟩
    · intro y z b d p h1 h2 h3 h4
      simp only [setVar] at h1 h2
      split at h1
      · simp at h1
      split at h2
      · simp at h2
      exact r.inj y z b d p h1 h2 h3 h4
    · intro p hp
      simp only [hb] at hp
      split at hp
      · simp at hp
      · rename_i h0
        obtain ⟨y, b, h1, h2⟩ := r.noleak p hp
        have : y ≠ x := by rintro rfl; rw [q1] at h1; cases h1; exact h0 h2
        exact ⟨y, b, by simp [setVar, this, h1], h2⟩
    · intro p hp; simp only [hn] at hp; simp only [hb]; split
      · rfl
      · exact r.fresh p hp
    · intro y; by_cases hy : y = x
      · simp [StorageSpec.step, setVar, StorageSpec.upd, hy]
      · simpa [StorageSpec.step, setVar, StorageSpec.upd, hy] using ha y
  | resize x n =>
    obtain ⟨a, l, l', q1, q2, q3, q4, q5, q6⟩ := getv x hl
    obtain ⟨a', h', l2, e1, e2, e3, _, e5⟩ := resize_repl s.heap r.fresh junk a l q2 n zero false
    refine ⟨_, _, by simp [Storage.step, live, q1, e1], r.replace x h' a' l2 (by simpa [q1] using e2), ?_⟩
    simp only [StorageSpec.step, q4, Option.map_some]
    by_cases hn : l'.length = n
    · rw [if_pos hn, e5 rfl (by omega)]; exact ha.upd x _ _ q5 q6
    · rw [if_neg hn]
      exact ha.upd x _ _ (by simp [e3]) (by intro i w hw; simp [List.getElem?_replicate] at hw)
  | resizeInit x n v =>
    obtain ⟨a, l, l', q1, q2, q3, q4, q5, q6⟩ := getv x hl
    obtain ⟨a', h', l2, e1, e2, e3, e4, _⟩ := resize_repl s.heap r.fresh junk a l q2 n v true
    refine ⟨_, _, by simp [Storage.step, live, q1, e1], r.replace x h' a' l2 (by simpa [q1] using e2), ?_⟩
    simp only [StorageSpec.step, q4, Option.map_some]
    refine ha.upd x _ _ (by rw [e3]; simp; omega) ?_
    intro i w hw
    rw [e4 rfl]
    rw [List.getElem?_append] at hw ⊢
    simp only [List.length_take, ← q5] at hw ⊢
    split at hw
    · rename_i h1
      rw [if_pos h1]; rw [List.getElem?_take] at hw ⊢; split at hw
      · rename_i h2; rw [if_pos h2]; exact q6 i w hw
      · simp at hw
    · rename_i h1
      rw [if_neg h1]
      simp only [List.getElem?_replicate] at hw ⊢
      split at hw
      · rename_i h2; rw [if_pos h2]; simpa using hw
      · simp at hw
  | assign x y =>
    obtain ⟨a, l, l', q1, q2, q3, q4, q5, q6⟩ := getv x hl.1
    obtain ⟨b, m, m', p1, p2, p3, p4, p5, p6⟩ := getv y hl.2
    by_cases hxy : x = y
    · subst hxy
      refine ⟨s, c, by simp [Storage.step, live, q1], r, ?_⟩
      have : StorageSpec.step e (Op.assign x x) = e := by
        funext z; simp only [StorageSpec.step, StorageSpec.upd]; split
        · simp_all
        · rfl
      rw [this]; exact ha
    · obtain ⟨a', h', l2, e1, e2, e3, _, _⟩ := resize_repl s.heap r.fresh junk a l q2 b.size zero false
      have r2 := r.replace x h' a' l2 (by simpa [q1] using e2)
      have hyx : y ≠ x := fun h => hxy h.symm
      obtain ⟨b2, v1, v2⟩ := r2.livev y m (by simp [setVar, hyx, p3])
      simp only [setVar, hyx, if_false, p1, Option.some.injEq] at v1; subst v1
      obtain ⟨a2, v3, v4⟩ := r2.livev x l2 (by simp [setVar])
      simp only [setVar, if_true, Option.some.injEq] at v3; subst v3
      have hbs := p2.1
      have fin : Agrees (setVar c x (some m)) (StorageSpec.step e (Op.assign x y)) := by
        simp only [StorageSpec.step, p4]; exact ha.upd x m m' p5 p6
      rcases v2.2 with ⟨rfl, hp⟩ | ⟨hne, p, hp, hb⟩
      · simp at hbs
        have : l2 = [] := List.eq_nil_of_length_eq_zero (by omega)
        subst this
        refine ⟨⟨h', setVar s.var x (some a')⟩, setVar c x (some []), ?_, r2, fin⟩
        simp only [Storage.step, live, q1, p1, bind_ok, hxy, if_false, e1, hbs, copyN_zero]
        rw [hbs] at e1; simp only [e1, bind_ok, copyN_zero]
      · have hl2 : l2 ≠ [] := by rintro rfl; simp at e3; exact hne (List.eq_nil_of_length_eq_zero (by omega))
        rcases v4.2 with ⟨h0, _⟩ | ⟨_, d, hd, hdb⟩
        · exact absurd h0 hl2
        have hpd : p ≠ d := by
          rintro rfl
          exact hyx (r2.inj y x b a' p (by simp [setVar, hyx, p1]) (by simp [setVar]) hp hd)
        have ec := copyN_spec h' p d b.size m l2 hb hdb hpd (by omega) (by omega)
        rw [List.take_of_length_le (by omega), List.drop_of_length_le (by omega), List.append_nil] at ec
        have rr := rep_write r2 x a' l2 (by simp [setVar]) (by simp [setVar]) d hd m (by omega) hl2
          ⟨h'.next, fun q => if q = d then some m else h'.blk q⟩ rfl (fun q => rfl)
        have r3 := r2.replace x _ a' m rr
        refine ⟨_, _, ?_, r3, ?_⟩
        · simp only [Storage.step, live, q1, p1, bind_ok, hxy, if_false, e1, hp, hd, ec]
          congr 2
          funext z; simp only [setVar]; split <;> rfl
        · have : setVar (setVar c x (some l2)) x (some m) = setVar c x (some m) := by
            funext z; simp only [setVar]; split <;> rfl
          rw [this]; exact fin
  | swap x y =>
    obtain ⟨a, l, l', q1, q2, q3, q4, q5, q6⟩ := getv x hl.1
    obtain ⟨b, m, m', p1, p2, p3, p4, p5, p6⟩ := getv y hl.2
    by_cases hxy : x = y
    · subst hxy
      refine ⟨s, c, by simp [Storage.step, live, q1], r, ?_⟩
      have : StorageSpec.step e (Op.swap x x) = e := by
        funext z; simp only [StorageSpec.step, StorageSpec.upd]; split
        · simp_all
        · rfl
      rw [this]; exact ha
    · have hyx : y ≠ x := fun h => hxy h.symm
      refine ⟨_, setVar (setVar c x (some m)) y (some l), by simp [Storage.step, live, q1, p1, hxy]; rfl, ?_, ?_⟩
      · -- renaming of the variables by the transposition (x y)
        let σ : Nat → Nat := fun z => if z = x then y else if z = y then x else z
        have hσ : ∀ z, setVar (setVar s.var x (some b)) y (some a) z = s.var (σ z) := by
          intro z; simp only [setVar, σ]
          by_cases h1 : z = x
          · simp [h1, hxy, p1]
          · by_cases h2 : z = y
            · simp [h2, hyx, q1]
            · simp [h1, h2]
        have hσc : ∀ z, setVar (setVar c x (some m)) y (some l) z = c (σ z) := by
          intro z; simp only [setVar, σ]
          by_cases h1 : z = x
          · simp [h1, hxy, p3]
          · by_cases h2 : z = y
            · simp [h2, hyx, q3]
            · simp [h1, h2]
        have hσσ : ∀ z, σ (σ z) = z := by
          intro z; simp only [σ]; grind
        refine ⟨?_, ?_, ?_, ?_, r.fresh⟩
        · intro z hz; rw [hσc] at hz; simp only; rw [hσ]; exact r.dead _ hz
        · intro z lz hz; rw [hσc] at hz; simp only; rw [hσ]; exact r.livev _ lz hz
        · intro u v au bv p h1 h2 h3 h4
          simp only at h1 h2; rw [hσ] at h1 h2
          have := r.inj _ _ au bv p h1 h2 h3 h4
          rw [← hσσ u, ← hσσ v, this]
        · intro p hp
          obtain ⟨z, az, h1, h2⟩ := r.noleak p hp
          exact ⟨σ z, az, by simp only; rw [hσ, hσσ]; exact h1, h2⟩
      · simp only [StorageSpec.step, p4, q4]
        exact (ha.upd x m m' p5 p6).upd y l l' q5 q6
  | store x i v =>
    obtain ⟨l0', he, hi⟩ := hl
    obtain ⟨a, l, l', q1, q2, q3, q4, q5, q6⟩ := getv x (by simp [he])
    rw [q4] at he; cases he
    have hil : i < l.length := by omega
    rcases q2.2 with ⟨rfl, _⟩ | ⟨hne, p, hp, hb⟩
    · simp at hil
    have rr := rep_write r x a l q1 q3 p hp (l.set i v) (by simp) hne
      ⟨s.heap.next, fun q => if q = p then some (l.set i v) else s.heap.blk q⟩ rfl (fun q => rfl)
    have r3 := r.replace x _ a _ rr
    have hsv : setVar s.var x (some a) = s.var := by rw [← q1]; exact setVar_comm_eq _ _
    rw [hsv] at r3
    refine ⟨_, _, ?_, r3, ?_⟩
    · have : i < a.size := by rw [q2.1]; exact hil
      simp only [Storage.step, live, q1, bind_ok, Storage.store, check_true this, hp, Heap.write, hb, wr_ok hil]
    · simp only [StorageSpec.step, q4, Option.map_some]
      refine ha.upd x _ _ (by simpa using q5) ?_
      intro j w hw
      rw [List.getElem?_set] at hw ⊢
      split at hw
      · rename_i h1; rw [if_pos h1]; subst h1; rw [if_pos hil]; simpa using hw
      · rename_i h1; rw [if_neg h1]; exact q6 j w hw

theorem run_sound (dbg : Bool) (zero : α) (ops : List (Op α × (Nat → α))) :
    ∀ (s : St α) c (e : Env α), Rep s c → Agrees c e → legalRun e ops →
      ∃ s' c', Storage.run dbg zero s ops = .ok s' ∧ Rep s' c' ∧ Agrees c' (StorageSpec.run e ops) := by
  induction ops with
  | nil => intro s c e r ha _; exact ⟨s, c, rfl, r, ha⟩
  | cons x ops ih =>
    obtain ⟨op, junk⟩ := x
    intro s c e r ha hl
    obtain ⟨s1, c1, e1, r1, ha1⟩ := step_sound dbg zero junk s c e op r ha hl.1
    obtain ⟨s2, c2, e2, r2, ha2⟩ := ih s1 c1 _ r1 ha1 hl.2
    exact ⟨s2, c2, by simp [Storage.run, e1, e2], r2, ha2⟩

theorem observes_of_rep (dbg : Bool) {s : St α} {c} {e : Env α} (r : Rep s c) (ha : Agrees c e) :
    Observes dbg s e ∧ NoLeak s := by
  refine ⟨?_, ?_, r.inj⟩
  · intro x
    refine ⟨fun h => r.dead x ((ha x).1.1 h), ?_⟩
    intro l' he
    obtain ⟨l, l2, h1, h2, h3, h4⟩ := ha.get (x := x) (by simp [he])
    rw [he] at h2; cases h2
    obtain ⟨a, h5, h6⟩ := r.livev x l h1
    refine ⟨a, h5, by rw [h6.1, h3], ?_⟩
    intro i hi
    have hil : i < l.length := by omega
    rcases h6.2 with ⟨rfl, _⟩ | ⟨_, p, hp, hb⟩
    · simp at hil
    refine ⟨l[i], ?_, ?_⟩
    · have : i < a.size := by rw [h6.1]; exact hil
      simp [Storage.index, check_true this, hp, Heap.read, hb, rd_ok hil]
    · intro w hw
      have := h4 i w hw
      rw [List.getElem?_eq_getElem hil] at this
      simpa using this
  · intro p hp
    obtain ⟨x, a, h1, h2⟩ := r.noleak p hp
    refine ⟨x, a, h1, h2, ?_⟩
    obtain ⟨l, _, hok⟩ := r.ok h1
    rcases hok.2 with ⟨_, h3⟩ | ⟨h3, _⟩
    · rw [h2] at h3; simp at h3
    · rw [hok.1]; simpa using h3

end Storage

/-- **C16** (unbounded_array).  Any legal history of constructions (sized, filled, copied, moved),
destructions, resizes, assignments, swaps and element writes on any number of named arrays, started
with nothing allocated, runs without any fault (no double free, no access to freed or foreign memory);
afterwards every array has the size and the specified elements that value semantics prescribes — in
particular operations on one array never change another — and every live memory block is owned by
exactly one live non-empty array, so nothing leaks. -/
theorem C16_unbounded_value_semantics (dbg : Bool) (zero : α) (ops : List (Op α × (Nat → α)))
    (h : legalRun (fun _ => none) ops) :
    ∃ s, Storage.run dbg zero Storage.init ops = .ok s ∧ Observes dbg s (StorageSpec.run (fun _ => none) ops) ∧ NoLeak s := by
  obtain ⟨s, c, h1, h2, h3⟩ := Storage.run_sound dbg zero ops Storage.init (fun _ => none) (fun _ => none)
    ⟨fun _ _ => rfl, by simp, by simp [Storage.init], by simp [Storage.init], fun _ _ => rfl⟩
    (fun x => by simp) h
  exact ⟨s, h1, Storage.observes_of_rep dbg h2 h3⟩

/-- **C16** (leak freedom).  If moreover every array has been destroyed at the end, no block is left. -/
theorem C16_all_destroyed_all_freed (dbg : Bool) (zero : α) (ops : List (Op α × (Nat → α)))
    (h : legalRun (fun _ => none) ops) (hd : ∀ x, StorageSpec.run (fun _ => none) ops x = none) :
    ∃ s, Storage.run dbg zero Storage.init ops = .ok s ∧ ∀ p, s.heap.blk p = none := by
  obtain ⟨s, h1, h2, h3⟩ := C16_unbounded_value_semantics dbg zero ops h
  refine ⟨s, h1, fun p => ?_⟩
  cases hb : s.heap.blk p with
  | none => rfl
  | some l =>
    obtain ⟨x, a, h4, _⟩ := h3.1 p (by simp [hb])
    rw [(h2 x).1 (hd x)] at h4; simp at h4

/-- With checks on, `operator []` outside the size raises `bad_index`. -/
theorem C16_out_of_range_rejected (h : Heap α) (a : UArr) (i : Nat) (v : α) (hi : ¬ i < a.size) :
    Storage.index true h a i = .error .badIndex ∧ Storage.store true h a i v = .error .badIndex := by
  simp [Storage.index, Storage.store, check_dbg_false hi]

/-- Witness: a history with construction, copy, move, growing and shrinking resize, assignment to a
different size, swap, destruction is legal (so the theorems above are not vacuous), and the resulting
array 1 is what value semantics says. -/
def C16_demo : List (Op Int × (Nat → Int)) :=
  [(.ctorInit 0 2 7, fun _ => 99), (.copyCtor 1 0, fun _ => 98), (.store 0 1 5, fun _ => 97),
   (.resizeInit 1 3 4, fun _ => 96), (.ctor 2 0, fun _ => 95), (.assign 2 1, fun _ => 94),
   (.moveCtor 3 2, fun _ => 93), (.swap 0 1, fun _ => 92), (.resize 0 1, fun _ => 91), (.dtor 3, fun _ => 90)]

example : legalRun (fun _ => none) C16_demo ∧ StorageSpec.run (fun _ => none) C16_demo 1 = some [some 7, some 5] := by
  simp [C16_demo, legalRun, StorageSpec.legal, StorageSpec.step, StorageSpec.upd, StorageSpec.run]

/-! ## bounded_array -/

namespace Storage.BArr

theorem fill_spec (d : List α) (a b : Nat) (v : α) (hab : a ≤ b) (hb : b ≤ d.length) :
    ∃ d', fill d a b v = .ok d' ∧ d'.length = d.length ∧
      ∀ i, d'[i]? = if a ≤ i ∧ i < b then some v else d[i]? := by
  obtain ⟨t, h1, h2, h3⟩ := loop_inv (f := fun k d => wr false d (a + k) v) (n := b - a) (s := d)
    (fun k t => t.length = d.length ∧ ∀ i, t[i]? = if a ≤ i ∧ i < a + k then some v else d[i]?)
    (by simp; intro i h1 h2; omega)
    (by
      rintro k t hk ⟨h1, h2⟩
      refine ⟨_, wr_ok (by omega), by simpa using h1, fun i => ?_⟩
      rw [List.getElem?_set, h2]
      grind)
  exact ⟨t, h1, h2, by rw [show a + (b - a) = b by omega] at h3; exact h3⟩

theorem copy_spec (d s : List α) (n : Nat) (hd : n ≤ d.length) (hs : n ≤ s.length) :
    ∃ d', copy d s n = .ok d' ∧ d'.length = d.length ∧ ∀ i, d'[i]? = if i < n then s[i]? else d[i]? := by
  obtain ⟨t, h1, h2, h3⟩ := loop_inv (f := fun k d => (rd false s k >>= fun v => wr false d k v : M (List α))) (n := n) (s := d)
    (fun k t => t.length = d.length ∧ ∀ i, t[i]? = if i < k then s[i]? else d[i]?)
    (by simp)
    (by
      rintro k t hk ⟨h1, h2⟩
      refine ⟨t.set k (s[k]'(by omega)), by rw [rd_ok (by omega : k < s.length), bind_ok, wr_ok (by omega)], by simpa using h1, fun i => ?_⟩
      rw [List.getElem?_set, h2]
      grind)
  exact ⟨t, h1, h2, h3⟩

/-- A well-formed `bounded_array<T, N>`. -/
def WF (N : Nat) (a : BArr α) : Prop := a.data.length = N ∧ a.size ≤ N

end Storage.BArr
open Storage.BArr

/-- **C16** (bounded_array, resize with fill).  `resize (n, v)` with n within the capacity keeps the first
min(old, n) elements and fills the others with v. -/
theorem C16_bounded_resize (dbg : Bool) (N : Nat) (a : BArr α) (hw : WF N a) (n : Nat) (v : α) (hn : n ≤ N) :
    ∃ b, a.resizeInit dbg N n v = .ok b ∧ WF N b ∧ b.size = n ∧
      ∀ i, i < n → b.index dbg i = if i < a.size then a.index dbg i else .ok v := by
  obtain ⟨h1, h2⟩ := hw
  by_cases hg : n > a.size
  · obtain ⟨d, e1, e2, e3⟩ := fill_spec a.data a.size n v (by omega) (by omega)
    refine ⟨⟨n, d⟩, by simp [resizeInit, check_true hn, hg, e1], ⟨by simp; omega, hn⟩, rfl, ?_⟩
    intro i hi
    by_cases hia : i < a.size
    · simp only [if_pos hia, Storage.BArr.index, check_true hi, check_true hia, bind_ok, rd, e3]
      rw [if_neg (by omega)]
    · simp only [if_neg hia, Storage.BArr.index, check_true hi, bind_ok, rd, e3]
      rw [if_pos ⟨by omega, hi⟩]
  · refine ⟨⟨n, a.data⟩, by simp [resizeInit, check_true hn, hg], ⟨h1, hn⟩, rfl, ?_⟩
    intro i hi
    have : i < a.size := by omega
    simp [this, Storage.BArr.index, check_true hi, check_true this]

/-- **C16** (bounded_array, capacity).  With checks on, every construction or resize beyond the capacity
raises `bad_size`. -/
theorem C16_bounded_rejects (N n : Nat) (a : BArr α) (v : α) (junk : Nat → α) (hn : ¬ n ≤ N) :
    Storage.BArr.ctor true N junk n = .error .badSize ∧ Storage.BArr.ctorInit true N junk n v = .error .badSize ∧
    a.resize true N n = .error .badSize ∧ a.resizeInit true N n v = .error .badSize := by
  simp [Storage.BArr.ctor, Storage.BArr.ctorInit, Storage.BArr.resize, resizeInit, check_dbg_false hn]

/-- **C16** (bounded_array, values).  Copy construction and assignment reproduce the source, `swap`
exchanges the two arrays, a filled array contains the fill value, a write changes one element. -/
theorem C16_bounded_value_semantics (dbg : Bool) (N : Nat) (a c : BArr α) (ha : WF N a) (hc : WF N c) (junk : Nat → α) :
    (∃ b, Storage.BArr.copyCtor N junk c = .ok b ∧ WF N b ∧ b.size = c.size ∧ ∀ i, b.index dbg i = c.index dbg i ∨ c.size ≤ i) ∧
    (∃ b, a.assign dbg N c = .ok b ∧ WF N b ∧ b.size = c.size ∧ ∀ i, b.index dbg i = c.index dbg i ∨ c.size ≤ i) ∧
    (∃ x y, a.swap c = .ok (x, y) ∧ WF N x ∧ WF N y ∧ x.size = c.size ∧ y.size = a.size ∧
      (∀ i, i < c.size → x.index dbg i = c.index dbg i) ∧ (∀ i, i < a.size → y.index dbg i = a.index dbg i)) ∧
    (∀ n v, n ≤ N → ∃ b, Storage.BArr.ctorInit dbg N junk n v = .ok b ∧ WF N b ∧ b.size = n ∧ ∀ i, i < n → b.index dbg i = .ok v) ∧
    (∀ i v, i < a.size → ∃ b, a.store dbg i v = .ok b ∧ WF N b ∧ b.size = a.size ∧ b.index dbg i = .ok v ∧
      ∀ j, j ≠ i → b.index dbg j = a.index dbg j) := by
  obtain ⟨a1, a2⟩ := ha
  obtain ⟨c1, c2⟩ := hc
  have idx : ∀ (b : BArr α), b.size = c.size → (∀ i, b.data[i]? = if i < c.size then c.data[i]? else b.data[i]?) →
      ∀ i, b.index dbg i = c.index dbg i ∨ c.size ≤ i := by
    intro b h1 h2 i
    by_cases hi : i < c.size
    · left; simp only [Storage.BArr.index, h1, rd]; rw [h2, if_pos hi]
    · right; omega
  refine ⟨?_, ?_, ?_, ?_, ?_⟩
  · obtain ⟨d, e1, e2, e3⟩ := copy_spec ((List.range N).map junk) c.data c.size (by simp; omega) (by omega)
    refine ⟨⟨c.size, d⟩, by simp [Storage.BArr.copyCtor, e1], ⟨by simp [e2], c2⟩, rfl, idx _ rfl fun i => ?_⟩
    simp only [e3]; split <;> rfl
  · obtain ⟨d, e1, e2, e3⟩ := copy_spec a.data c.data c.size (by omega) (by omega)
    refine ⟨⟨c.size, d⟩, by simp [Storage.BArr.assign, Storage.BArr.resize, check_true c2, e1], ⟨by simp [e2, a1], c2⟩, rfl, idx _ rfl fun i => ?_⟩
    simp only [e3]; split <;> rfl
  · obtain ⟨⟨d, e⟩, h1, h2, h3, h4, h5⟩ := loop_inv (f := fun k (p : List α × List α) => (do
      let v ← rd false p.1 k
      let w ← rd false p.2 k
      let p1 ← wr false p.1 k w
      let p2 ← wr false p.2 k v
      .ok (p1, p2) : M (List α × List α))) (n := max c.size a.size) (s := (a.data, c.data))
      (fun k t => t.1.length = N ∧ t.2.length = N ∧ (∀ i, t.1[i]? = if i < k then c.data[i]? else a.data[i]?) ∧
        (∀ i, t.2[i]? = if i < k then a.data[i]? else c.data[i]?))
      (by simp [a1, c1])
      (by
        rintro k ⟨p, q⟩ hk ⟨g1, g2, g3, g4⟩
        have k1 : k < p.length := by simp only at g1; omega
        have k2 : k < q.length := by simp only at g2; omega
        refine ⟨(p.set k q[k], q.set k p[k]), by simp [rd_ok k1, rd_ok k2, wr_ok k1, wr_ok k2], by simpa using g1, by simpa using g2, ?_, ?_⟩
        · intro i
          have := g4 k; have := g3 i; simp only at *
          rw [List.getElem?_set]; grind
        · intro i
          have := g3 k; have := g4 i; simp only at *
          rw [List.getElem?_set]; grind)
    refine ⟨⟨c.size, d⟩, ⟨a.size, e⟩, by simp only [Storage.BArr.swap, h1, bind_ok], ⟨h2, c2⟩, ⟨h3, a2⟩, rfl, rfl, ?_, ?_⟩
    · intro i hi; simp only [Storage.BArr.index, rd]; rw [h4, if_pos (by omega)]
    · intro i hi; simp only [Storage.BArr.index, rd]; rw [h5, if_pos (by omega)]
  · intro n v hn
    obtain ⟨d, e1, e2, e3⟩ := fill_spec ((List.range N).map junk) 0 n v (by omega) (by simp; omega)
    refine ⟨⟨n, d⟩, by simp [Storage.BArr.ctorInit, check_true hn, e1], ⟨by simp [e2], hn⟩, rfl, ?_⟩
    intro i hi
    simp [Storage.BArr.index, check_true hi, rd, e3, hi]
  · intro i v hi
    have hl : i < a.data.length := by omega
    refine ⟨⟨a.size, a.data.set i v⟩, by simp [Storage.BArr.store, check_true hi, wr_ok hl], ⟨by simp [a1], a2⟩, rfl, ?_, ?_⟩
    · simp [Storage.BArr.index, check_true hi, rd, hl]
    · intro j hj; have : ¬ i = j := fun h => hj h.symm
      simp [Storage.BArr.index, rd, List.getElem?_set, this]

example : WF 4 (⟨2, [1, 2, 3, 4]⟩ : BArr Nat) := ⟨rfl, by decide⟩
example : (⟨2, [1, 2, 3, 4]⟩ : BArr Nat).swap ⟨3, [5, 6, 7, 8]⟩ = .ok (⟨3, [5, 6, 7, 4]⟩, ⟨2, [1, 2, 3, 8]⟩) := by decide

end Ublas
