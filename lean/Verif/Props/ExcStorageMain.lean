import Verif.Props.ExcStorage
/-! # C104: exception safety of unbounded_array, the statements -/
namespace Ublas.Exc
open Storage (Op UArr setVar)
variable {α : Type} (E : Env α)

/-- The elements a state shows are determined by the state. -/
theorem shows_unique {s : St α} {v w : View α} (hv : Shows s v) (hw : Shows s w) : v = w := by
  funext x
  cases h1 : v x with
  | none =>
    cases h2 : w x with
    | none => rfl
    | some K =>
      obtain ⟨a, ha, _⟩ := hw.live x K h2
      rw [hv.dead x h1] at ha; cases ha
  | some L =>
    obtain ⟨a, ha, hs, hb⟩ := hv.live x L h1
    cases h2 : w x with
    | none => rw [hw.dead x h2] at ha; cases ha
    | some K =>
      obtain ⟨a', ha', hs', hb'⟩ := hw.live x K h2
      rw [ha] at ha'; cases ha'
      by_cases hL : L = []
      · subst hL
        have : K = [] := List.length_eq_zero_iff.1 (by rw [← hs', hs]; rfl)
        rw [this]
      · have hK : K ≠ [] := by rintro rfl; exact hL (List.length_eq_zero_iff.1 (by rw [← hs, hs']; rfl))
        obtain ⟨p, hp, hbp⟩ := hb hL
        obtain ⟨q, hq, hbq⟩ := hb' hK
        rw [hp] at hq; cases hq
        rw [hbp] at hbq
        have := Option.some.inj hbq
        congr 1
        exact (List.map_inj_right (fun _ _ e => Option.some.inj e)).1 this

/-- **C104 (allocation failures).** When element operations do not throw, every legal operation either completes with its documented effect, or ends with `std::bad_alloc` - and then an allocation has
indeed failed, and no block, no array and no element has changed.  It never has undefined behaviour, and it never leaks. -/
theorem C104_alloc_failure (hE : ∀ k, E.elemFails k = false) (s : St α) (v : View α) (hs : Shows s v) (op : Op α) (hl : Legal v op) :
    (∃ s' v', step E op s = .ok () s' ∧ Effect v op v' ∧ Shows s' v' ∧ (NoLeak s → NoLeak s')) ∨
    (∃ s', step E op s = .threw s' ∧ (∃ k, E.allocFails k = true) ∧ s'.blk = s.blk ∧ s'.var = s.var ∧ Shows s' v ∧ (NoLeak s → NoLeak s')) := by
  have h := step_spec E hs op hl
  unfold wp at h
  cases hr : step E op s with
  | ok u s' =>
    rw [hr] at h
    obtain ⟨v', h1, h2, h3⟩ := h
    exact .inl ⟨s', v', rfl, h1, h2, h3⟩
  | threw s' =>
    rw [hr] at h
    rcases h with ⟨hat, k, hk⟩ | ⟨⟨k, hk⟩, _⟩
    · rw [hE k] at hk
      exact .inr ⟨s', rfl, ⟨k, hk.resolve_right (by simp)⟩, hat.1, hat.2.1, shows_at hs hat, noleak_at hat⟩
    · rw [hE k] at hk; cases hk
  | ub => rw [hr] at h; exact h.elim

/-- **C104 (histories).** A program that performs any sequence of legal operations, catching every `std::bad_alloc` and going on, always has usable arrays and never leaks memory: once its arrays are
destroyed no block is left. -/
theorem C104_history (hE : ∀ k, E.elemFails k = false) (s : St α) (h : Reach E s) :
    (∃ v, Shows s v ∧ ∀ op, Legal v op → step E op s ≠ .ub) ∧ NoLeak s ∧ ((∀ x, s.var x = none) → ∀ p, s.blk p = none) := by
  have key : (∃ v, Shows s v) ∧ NoLeak s := by
    induction h with
    | start c n =>
      exact ⟨⟨fun _ => none, fun _ _ => rfl, fun _ _ e => (by cases e), fun _ _ _ _ _ e => (by cases e), fun _ _ => rfl⟩, fun p hp => absurd rfl hp⟩
    | @step s s' v op _ hv hl hr ih =>
      rcases C104_alloc_failure E hE s v hv op hl with ⟨s1, v1, e, _, h1, h2⟩ | ⟨s1, e, _, _, _, h1, h2⟩
      · rw [e] at hr
        rcases hr with hr | hr
        · cases hr; exact ⟨⟨v1, h1⟩, h2 ih.2⟩
        · cases hr
      · rw [e] at hr
        rcases hr with hr | hr
        · cases hr
        · cases hr; exact ⟨⟨v, h1⟩, h2 ih.2⟩
  obtain ⟨⟨v, hv⟩, hn⟩ := key
  refine ⟨⟨v, hv, fun op hl e => ?_⟩, hn, fun hd p => ?_⟩
  · rcases C104_alloc_failure E hE s v hv op hl with ⟨_, _, e', _⟩ | ⟨_, e', _⟩ <;> rw [e] at e' <;> cases e'
  · cases hp : s.blk p with
    | none => rfl
    | some c =>
      obtain ⟨x, a, ha, _⟩ := hn p (by rw [hp]; exact fun e => by cases e)
      rw [hd x] at ha; cases ha

/-- **C104 (element failures, partial).** Also when constructing or copying an element throws, a legal operation has no undefined behaviour of its own and completes with its documented effect or throws
because something failed.  After an exception out of a constructor, an element write or an operation that replaces no block, every array is usable and only the target has changed (no leak unless a
constructor threw).  Missing: after an exception out of a `resize` or an assignment that replaces the block, this holds only for the other arrays. -/
theorem C104_element_partial (s : St α) (v : View α) (hs : Shows s v) (op : Op α) (hl : Legal v op) :
    (∃ s' v', step E op s = .ok () s' ∧ Effect v op v' ∧ Shows s' v' ∧ (NoLeak s → NoLeak s')) ∨
    (∃ s', step E op s = .threw s' ∧ (∃ k, E.allocFails k = true ∨ E.elemFails k = true) ∧
      ((∃ v', Shows s' v' ∧ (∀ y, y ≠ target op → v' y = v y) ∧ (isCtor op = false → NoLeak s → NoLeak s')) ∨
       (¬ Stable v op ∧ Shows (forget (target op) s') (setVar v (target op) none)))) := by
  have h := step_spec E hs op hl
  unfold wp at h
  cases hr : step E op s with
  | ok u s' =>
    rw [hr] at h
    obtain ⟨v', h1, h2, h3⟩ := h
    exact .inl ⟨s', v', rfl, h1, h2, h3⟩
  | threw s' =>
    rw [hr] at h
    rcases h with ⟨hat, hk⟩ | ⟨⟨k, hk⟩, h'⟩
    · exact .inr ⟨s', rfl, hk, .inl ⟨v, shows_at hs hat, fun _ _ => rfl, fun _ => noleak_at hat⟩⟩
    · exact .inr ⟨s', rfl, ⟨k, .inr hk⟩, h'⟩
  | ub => rw [hr] at h; exact h.elim

theorem loop_threw {f : Nat → EM α Unit} {s s' : St α} (h : f 0 s = .threw s') : ∀ n, n ≠ 0 → loopE f n s = .threw s'
  | 0, hn => absurd rfl hn
  | 1, _ => h
  | n + 2, _ => by
    show EM.bind (loopE f (n + 1)) (fun _ => f (n + 1)) s = _
    unfold EM.bind
    rw [loop_threw h (n + 1) (by omega)]

theorem loop_ub {f : Nat → EM α Unit} {s : St α} (h : f 0 s = .ub) : ∀ n, n ≠ 0 → loopE f n s = .ub
  | 0, hn => absurd rfl hn
  | 1, _ => h
  | n + 2, _ => by
    show EM.bind (loopE f (n + 1)) (fun _ => f (n + 1)) s = _
    unfold EM.bind
    rw [loop_ub h (n + 1) (by omega)]

theorem bind_ok' {β γ : Type} {m : EM α β} {f : β → EM α γ} {s s' : St α} {b : β} (h : m s = .ok b s') : (m >>= f) s = f b s' := by
  show EM.bind m f s = _
  unfold EM.bind; rw [h]

theorem bind_threw' {β γ : Type} {m : EM α β} {f : β → EM α γ} {s s' : St α} (h : m s = .threw s') : (m >>= f) s = .threw s' := by
  show EM.bind m f s = _
  unfold EM.bind; rw [h]

theorem bind_ub' {β γ : Type} {m : EM α β} {f : β → EM α γ} {s : St α} (h : m s = .ub) : (m >>= f) s = .ub := by
  show EM.bind m f s = _
  unfold EM.bind; rw [h]

/-- **C104 refuted for elements that throw.** For every non-empty array, every new size other than 0 and the present one, and every element type with non-trivial constructor and destructor: when
copying the first element throws, `resize` leaves an array whose destruction - which stack unwinding performs next - is undefined behaviour, because it destroys elements that were never constructed
(storage.hpp:147 overwrites the pointer before the elements are copied). -/
theorem C104_resize_element_refuted (s : St α) (v : View α) (hs : Shows s v) (x n : Nat) (t : α) (L : List α) (hx : v x = some L) (hL : L ≠ []) (hn : n ≠ 0) (hnL : n ≠ L.length)
    (hC : E.trivC = false) (hD : E.trivD = false) (hA : E.allocFails s.clock = false) (hF : E.elemFails (s.clock + 1) = true) :
    ∃ s', step E (.resizeInit x n t) s = .threw s' ∧ step E (.dtor x) s' = .ub := by
  obtain ⟨a, ha, hsz, hb⟩ := hs.live x L hx
  obtain ⟨p, hp, hpb⟩ := hb hL
  have hL0 : L.length ≠ 0 := len_ne hL
  have hpn : p ≠ s.next := Nat.ne_of_lt (hs.own_lt ⟨a, ha, by rw [hsz]; exact hL0, hp⟩)
  let c : List (Option α) := (List.range n).map fun k => if E.trivC then some (E.junk s.clock k) else none
  have hc0 : c[0]? = some none := by
    show ((List.range n).map fun k => if E.trivC then some (E.junk s.clock k) else none)[0]? = _
    rw [hC, List.getElem?_map, List.getElem?_range (by omega)]
    rfl
  let s1 : St α := ⟨s.clock + 1, s.next + 1, setVar s.blk s.next (some c), s.var⟩
  let s2 : St α := ⟨s.clock + 1, s.next + 1, setVar s.blk s.next (some c), setVar s.var x (some ⟨a.size, some s.next⟩)⟩
  let s3 : St α := ⟨s.clock + 1 + 1, s.next + 1, setVar s.blk s.next (some c), setVar s.var x (some ⟨a.size, some s.next⟩)⟩
  have hobj : obj x s = .ok a s := by unfold obj; rw [ha]
  have hal : allocate E n s = .ok s.next s1 := by unfold allocate; rw [hA]; rfl
  have hrd : read (some p) 0 s2 = .ok L[0] s2 := by
    unfold read
    dsimp only
    rw [show s2.blk p = some (L.map some) from by show setVar s.blk s.next (some c) p = _; rw [setVar_ne _ _ hpn]; exact hpb]
    dsimp only
    rw [List.getElem?_map, List.getElem?_eq_getElem (by omega)]
    rfl
  have hcon : ∀ w, construct E s.next (0 + 0) w s2 = .threw s3 := by
    intro w
    unfold construct
    rw [show s2.clock = s.clock + 1 from rfl, hF]
    rfl
  have hcopy : ∀ m, m ≠ 0 → copyTo E a.ptr s.next m s2 = .threw s3 := by
    intro m hm
    unfold copyTo
    refine loop_threw ?_ m hm
    rw [hp, bind_ok' hrd]
    exact hcon _
  have hbuild : build E a s.next n t true s2 = .threw s3 := by
    unfold build
    rw [if_pos rfl]
    by_cases hlt : n < a.size
    · rw [if_pos hlt]; exact hcopy n hn
    · rw [if_neg hlt]
      exact bind_threw' (hcopy a.size (by omega))
  refine ⟨s3, ?_, ?_⟩
  · show resizeInternal E x n t true s = _
    unfold resizeInternal
    rw [bind_ok' hobj]
    unfold whenE
    rw [if_pos (by omega), if_pos hn]
    apply bind_threw'
    rw [bind_ok' hal]
    rw [bind_ok' (show setObj x (some ⟨a.size, some s.next⟩) s1 = .ok () s2 from rfl)]
    exact hbuild
  · show dtor E x s3 = _
    unfold dtor
    rw [bind_ok' (show obj x s3 = .ok ⟨a.size, some s.next⟩ s3 from by unfold obj; rw [show s3.var x = some ⟨a.size, some s.next⟩ from setVar_same _ _ _])]
    unfold whenE
    rw [if_pos (by show a.size ≠ 0; omega)]
    apply bind_ub'
    show release E (some s.next) a.size s3 = _
    unfold release whenE
    dsimp only
    rw [if_pos (by rw [hD]; exact Bool.false_ne_true)]
    apply bind_ub'
    refine loop_ub ?_ a.size (by omega)
    unfold destroyCell
    rw [show s3.blk s.next = some c from setVar_same _ _ _]
    dsimp only
    rw [hc0]

theorem uninit_threw {p : Nat} {w : α} {s : St α} (hF : E.elemFails s.clock = true) : ∀ n, n ≠ 0 → uninit E p (fun _ => pure w) n s = .threw { s with clock := s.clock + 1 }
  | 0, hn => absurd rfl hn
  | 1, _ => by
    show (match construct E p 0 w s with
      | .threw s' => (match loopE (destroyCell p) 0 s' with
        | .ok _ s'' => .threw s''
        | r => r)
      | r => r : Res α Unit) = _
    unfold construct
    rw [hF]
    rfl
  | n + 2, _ => by
    show EM.bind (uninit E p (fun _ => pure w) (n + 1)) _ s = _
    unfold EM.bind
    rw [uninit_threw hF (n + 1) (by omega)]

/-- **C104 refuted, leaks.** A constructor `unbounded_array (n, init)` whose first element copy throws leaks its block: no array owns it, so nothing will ever free it (storage.hpp:88-96 has no
try/catch, and the destructor of an object whose constructor threw does not run). -/
theorem C104_ctor_leak_refuted (s : St α) (v : View α) (hs : Shows s v) (x n : Nat) (t : α) (hn : n ≠ 0) (hA : E.allocFails s.clock = false) (hF : E.elemFails (s.clock + 1) = true) :
    ∃ s', step E (.ctorInit x n t) s = .threw s' ∧ Shows s' v ∧ ¬ NoLeak s' := by
  let c : List (Option α) := (List.range n).map fun k => if E.trivC then some (E.junk s.clock k) else none
  let s1 : St α := ⟨s.clock + 1, s.next + 1, setVar s.blk s.next (some c), s.var⟩
  have hal : allocate E n s = .ok s.next s1 := by unfold allocate; rw [hA]; rfl
  refine ⟨{ s1 with clock := s1.clock + 1 }, ?_, ctor_lost hs c ⟨rfl, rfl, rfl⟩, fun hno => ?_⟩
  · show ctorInit E x n t s = _
    unfold ctorInit
    rw [if_pos hn, bind_ok' hal]
    exact bind_threw' (uninit_threw E (s := s1) hF n hn)
  · obtain ⟨y, a, ha, hsz, hp⟩ := hno s.next (by show setVar s.blk s.next (some c) s.next ≠ none; rw [setVar_same]; exact fun e => by cases e)
    exact Nat.lt_irrefl _ (hs.own_lt ⟨a, ha, hsz, hp⟩)

/-! ### Concrete cases -/

/-- Two arrays: 0 holds three elements in block 0, 1 is empty. -/
def exS : St Nat := ⟨0, 1, setVar (fun _ => none) 0 (some [some 7, some 8, some 9]), setVar (setVar (fun _ => none) 0 (some ⟨3, some 0⟩)) 1 (some ⟨0, none⟩)⟩
def exV : View Nat := setVar (setVar (fun _ => none) 0 (some [7, 8, 9])) 1 (some [])
/-- Every allocation fails. -/
def exNoMem : Env Nat := ⟨fun _ => true, fun _ => false, false, false, 0, fun _ _ => 0⟩
/-- Every element operation fails. -/
def exNoCopy : Env Nat := ⟨fun _ => false, fun _ => true, false, false, 0, fun _ _ => 0⟩

theorem exShows : Shows exS exV := by
  refine ⟨fun x h => ?_, fun x L h => ?_, fun x y a b p ha hb hsa hsb hpa hpb => ?_, fun p hp => ?_⟩
  · simp only [exV, exS, setVar] at h ⊢
    split at h
    · cases h
    · split at h
      · cases h
      · simp_all
  · simp only [exV, exS, setVar] at h ⊢
    split at h
    · cases h; rename_i e; subst e
      exact ⟨_, rfl, rfl, fun e => absurd rfl e⟩
    · split at h
      · cases h; rename_i e; subst e
        exact ⟨_, rfl, rfl, fun _ => ⟨0, rfl, rfl⟩⟩
      · cases h
  · simp only [exS, setVar] at ha hb
    split at ha
    · cases ha; exact absurd rfl hsa
    · split at ha
      · split at hb
        · cases hb; exact absurd rfl hsb
        · split at hb
          · simp_all
          · cases hb
      · cases ha
  · have : ¬ p = 0 := by have : (1 : Nat) ≤ p := hp; omega
    simp [exS, setVar, this]

theorem exNoLeak : NoLeak exS := by
  intro p hp
  have : p = 0 := by
    rcases Nat.decEq p 0 with h | h
    · exact absurd (by simp [exS, setVar, h]) hp
    · exact h
  subst this
  exact ⟨0, ⟨3, some 0⟩, rfl, by decide, rfl⟩

/-- Enlarging the three-element array without memory throws and changes nothing; with memory it succeeds. -/
example : (match step exNoMem (.resizeInit 0 5 1) exS with | .threw s' => s'.var 0 = some ⟨3, some 0⟩ ∧ s'.blk 0 = some [some 7, some 8, some 9] | _ => False) := ⟨rfl, rfl⟩
example : (match step { exNoMem with allocFails := fun _ => false } (.resizeInit 0 5 1) exS with | .ok _ s' => s'.var 0 = some ⟨5, some 1⟩ ∧ s'.blk 1 = some [some 7, some 8, some 9, some 1, some 1] ∧ s'.blk 0 = none | _ => False) := ⟨rfl, rfl, rfl⟩
example : Legal exV (.resizeInit 0 5 1) := by simp [Legal, exV, setVar]
example : ∃ s', step exNoCopy (.resizeInit 0 5 1) exS = .threw s' ∧ step exNoCopy (.dtor 0) s' = .ub :=
  C104_resize_element_refuted exNoCopy exS exV exShows 0 5 1 [7, 8, 9] rfl (by decide) (by decide) (by decide) rfl rfl rfl rfl
example : ∃ s', step exNoCopy (.ctorInit 2 5 1) exS = .threw s' ∧ Shows s' exV ∧ ¬ NoLeak s' := C104_ctor_leak_refuted exNoCopy exS exV exShows 2 5 1 (by decide) rfl rfl
/-- A failing element write and a failing shrink to nothing are stable. -/
example : Stable exV (.resizeInit 0 0 1) ∧ Stable exV (.store 0 1 5) := ⟨fun _ _ => .inr rfl, trivial⟩
example : Reach exNoMem (⟨3, 4, fun _ => none, fun _ => none⟩ : St Nat) := .start 3 4

end Ublas.Exc
