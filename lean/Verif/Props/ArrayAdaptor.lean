import Verif.Spec.ArrayAdaptor
import Verif.Lemmas.Storage
/-! # C99: array_adaptor -/
namespace Ublas.Adaptor
open AdaptorSpec
open Storage (Heap Fresh copyN fillFrom copyN_spec fillFrom_spec setVar)
variable {α : Type}

/-- The object `a` is what `o` says. -/
def ObjOK (h : Heap α) (mem : Nat → Option (List α)) (a : AArr) : Obj α → Prop
  | .own l => a.size = l.length ∧ a.own = true ∧ h.blk a.ptr = some l ∧ mem a.ptr = none
  | .at_ b n => a = ⟨n, false, b⟩ ∧ ∃ l, mem b = some l ∧ n ≤ l.length

structure Rep (s : St α) (e : Env α) : Prop where
  fresh : Fresh s.heap
  mem : ∀ b l, e.mem b = some l → s.heap.blk b = some l
  dead : ∀ x, e.obj x = none → s.var x = none
  alive : ∀ x o, e.obj x = some o → ∃ a, s.var x = some a ∧ ObjOK s.heap e.mem a o
  inj : ∀ x y a c, s.var x = some a → s.var y = some c → a.own = true → c.own = true → a.ptr = c.ptr → x = y
  acc : ∀ p, s.heap.blk p ≠ none → e.mem p ≠ none ∨ ∃ x a, s.var x = some a ∧ a.own = true ∧ a.ptr = p

/-- The cells of an object: its block starts with them. -/
theorem ObjOK.block {h : Heap α} {e : Env α} {a : AArr} {o : Obj α} (hm : ∀ b l, e.mem b = some l → h.blk b = some l) (ho : ObjOK h e.mem a o) :
    ∃ l, h.blk a.ptr = some l ∧ a.size ≤ l.length ∧ o.cells e = l.take a.size ∧ (o.cells e).length = a.size := by
  cases o with
  | own l => obtain ⟨h1, _, h3, _⟩ := ho; exact ⟨l, h3, by omega, by simp [Obj.cells, h1], by simp [Obj.cells, h1]⟩
  | at_ b n =>
    obtain ⟨rfl, l, h1, h2⟩ := ho
    exact ⟨l, hm _ _ h1, h2, by simp [Obj.cells, h1], by simp [Obj.cells, h1, h2]⟩

/-- A block the object owns is not the program's. -/
theorem ObjOK.own {h : Heap α} {mem : Nat → Option (List α)} {a : AArr} {o : Obj α} (ho : ObjOK h mem a o) (ha : a.own = true) : mem a.ptr = none := by
  cases o with
  | own l => exact ho.2.2.2
  | at_ b n => obtain ⟨rfl, _⟩ := ho; simp at ha

/-- Object `x` is replaced: the block it owned (if any) goes, the program's arrays change to `mem'`, and it becomes `a'`, all others staying what they are. -/
theorem Rep.replace {s : St α} {e : Env α} (r : Rep s e) (x : Nat) {h' : Heap α} {mem' : Nat → Option (List α)} {a' : AArr} {o' : Obj α}
    (hf : Fresh h') (hmem : ∀ b l, mem' b = some l → h'.blk b = some l) (hdom : ∀ b, (mem' b = none ↔ e.mem b = none))
    (hlen : ∀ b l l', e.mem b = some l → mem' b = some l' → l'.length = l.length)
    (hk : ∀ y a, y ≠ x → s.var y = some a → a.own = true → h'.blk a.ptr = s.heap.blk a.ptr ∧ (a'.own = true → a.ptr ≠ a'.ptr))
    (ho : ObjOK h' mem' a' o')
    (hacc : ∀ p, h'.blk p ≠ none → (s.heap.blk p ≠ none ∧ ∀ a, s.var x = some a → a.own = true → a.ptr ≠ p) ∨ (a'.own = true ∧ a'.ptr = p)) :
    Rep ⟨h', setVar s.var x (some a')⟩ ⟨mem', fun y => if y = x then some o' else e.obj y⟩ := by
  refine ⟨hf, hmem, fun y hy => ?_, fun y o hy => ?_, fun y z a c hy hz ha hc hp => ?_, fun p hp => ?_⟩
  · by_cases hyx : y = x
    · simp [hyx] at hy
    · simp only [hyx, if_false] at hy
      simp only [setVar, hyx, if_false]; exact r.dead y hy
  · by_cases hyx : y = x
    · subst hyx
      simp only [if_true, Option.some.injEq] at hy
      subst hy
      exact ⟨a', by simp [setVar], ho⟩
    · simp only [hyx, if_false] at hy
      obtain ⟨a, h1, h2⟩ := r.alive y o hy
      refine ⟨a, by simp only [setVar, hyx, if_false]; exact h1, ?_⟩
      cases o with
      | own l =>
        obtain ⟨b1, b2, b3, b4⟩ := h2
        exact ⟨b1, b2, by rw [show (⟨h', setVar s.var x (some a')⟩ : St α).heap = h' from rfl, (hk y a hyx h1 b2).1]; exact b3, (hdom _).2 b4⟩
      | at_ b n =>
        obtain ⟨b1, l, b2, b3⟩ := h2
        refine ⟨b1, ?_⟩
        cases hb : mem' b with
        | none => rw [(hdom b).1 hb] at b2; cases b2
        | some l' => exact ⟨l', hb, by rw [hlen b l l' b2 hb]; exact b3⟩
  · simp only [setVar] at hy hz
    by_cases hyx : y = x <;> by_cases hzx : z = x
    · rw [hyx, hzx]
    · simp only [hyx, if_true, Option.some.injEq, hzx, if_false] at hy hz
      subst hy
      exact absurd hp.symm ((hk z c hzx hz hc).2 ha)
    · simp only [hzx, if_true, Option.some.injEq, hyx, if_false] at hy hz
      subst hz
      exact absurd hp ((hk y a hyx hy ha).2 hc)
    · simp only [hyx, hzx, if_false] at hy hz
      exact r.inj y z a c hy hz ha hc hp
  · rcases hacc p hp with ⟨h1, h2⟩ | ⟨h1, h2⟩
    · rcases r.acc p h1 with h3 | ⟨y, a, h3, h4, h5⟩
      · exact .inl fun h => h3 ((hdom p).1 h)
      · refine .inr ⟨y, a, ?_, h4, h5⟩
        have : y ≠ x := by rintro rfl; exact h2 a h3 h4 h5
        simp only [setVar, this, if_false]; exact h3
    · exact .inr ⟨x, a', by simp [setVar], h1, h2⟩

/-- The block object `x` owns. -/
def owned (s : St α) (x : Nat) : Option Nat :=
  match s.var x with
  | some a => if a.own then some a.ptr else none
  | none => none

theorem owned_iff {s : St α} {x p : Nat} : owned s x = some p ↔ ∃ a, s.var x = some a ∧ a.own = true ∧ a.ptr = p := by
  unfold owned
  cases h : s.var x with
  | none => simp
  | some a => simp

theorem Rep.own_mem {s : St α} {e : Env α} (r : Rep s e) {x : Nat} {a : AArr} (h : s.var x = some a) (ho : a.own = true) : e.mem a.ptr = none := by
  cases h1 : e.obj x with
  | none => rw [r.dead x h1] at h; cases h
  | some o =>
    obtain ⟨a', h2, h3⟩ := r.alive x o h1
    rw [h] at h2; cases h2
    exact h3.own ho

theorem Rep.own_lt {s : St α} {e : Env α} (r : Rep s e) {x : Nat} {a : AArr} (h : s.var x = some a) : a.ptr < s.heap.next := by
  cases h1 : e.obj x with
  | none => rw [r.dead x h1] at h; cases h
  | some o =>
    obtain ⟨a', h2, h3⟩ := r.alive x o h1
    rw [h] at h2; cases h2
    obtain ⟨l, h4, _⟩ := h3.block r.mem
    exact r.fresh.lt h4

/-- `x` gets a new block. -/
theorem Rep.new {s : St α} {e : Env α} (r : Rep s e) (x : Nat) {h' : Heap α} {l' : List α} (hn : h'.next = s.heap.next + 1)
    (hb : ∀ q, h'.blk q = if owned s x = some q then none else if q = s.heap.next then some l' else s.heap.blk q) :
    Rep ⟨h', setVar s.var x (some ⟨l'.length, true, s.heap.next⟩)⟩ (setObj e x (some (.own l'))) := by
  have hne : owned s x ≠ some s.heap.next := by
    intro h
    obtain ⟨a, h1, _, h3⟩ := owned_iff.1 h
    have := r.own_lt h1
    omega
  refine r.replace x ?_ ?_ (fun _ => Iff.rfl) ?_ ?_ ?_ ?_
  · intro p hp
    rw [hn] at hp
    rw [hb, if_neg, if_neg (by omega)]
    · exact r.fresh p (by omega)
    · intro h
      obtain ⟨a, h1, _, h3⟩ := owned_iff.1 h
      have := r.own_lt h1
      omega
  · intro b l hbl
    have h1 := r.mem b l hbl
    have h2 := r.fresh.lt h1
    rw [hb, if_neg, if_neg (by omega)]
    · exact h1
    · intro h
      obtain ⟨a, h3, h4, rfl⟩ := owned_iff.1 h
      rw [r.own_mem h3 h4] at hbl; cases hbl
  · intro b l l' h1 h2; rw [h1] at h2; cases h2; rfl
  · intro y a hyx hy ha
    have h1 := r.own_lt hy
    refine ⟨?_, fun _ => by simp only []; omega⟩
    rw [hb, if_neg, if_neg (by omega)]
    intro h
    obtain ⟨c, h2, h3, h4⟩ := owned_iff.1 h
    exact hyx (r.inj y x a c hy h2 ha h3 h4.symm)
  · refine ⟨rfl, rfl, ?_, ?_⟩
    · simp only []; rw [hb, if_neg hne, if_pos rfl]
    · cases h : e.mem s.heap.next with
      | none => rfl
      | some l => have := r.fresh.lt (r.mem _ _ h); omega
  · intro p hp
    rw [hb] at hp
    by_cases h1 : owned s x = some p
    · simp [h1] at hp
    · rw [if_neg h1] at hp
      by_cases h2 : p = s.heap.next
      · exact .inr ⟨rfl, h2.symm⟩
      · rw [if_neg h2] at hp
        exact .inl ⟨hp, fun a h3 h4 h5 => h1 (owned_iff.2 ⟨a, h3, h4, h5⟩)⟩

/-- A program's array changes. -/
theorem Rep.poke {s : St α} {e : Env α} (r : Rep s e) {b : Nat} {m l' : List α} (hm : e.mem b = some m) (hl : l'.length = m.length) {h' : Heap α} (hn : h'.next = s.heap.next)
    (hb : ∀ q, h'.blk q = if q = b then some l' else s.heap.blk q) : Rep ⟨h', s.var⟩ (setMem e b l') := by
  have hbb := r.mem b m hm
  have hnb : ∀ {x a}, s.var x = some a → a.own = true → a.ptr ≠ b := by
    rintro x a h1 h2 rfl
    rw [r.own_mem h1 h2] at hm; cases hm
  refine ⟨?_, ?_, r.dead, ?_, r.inj, ?_⟩
  · intro p hp
    have := r.fresh.lt hbb
    simp only [hn] at hp
    simp only [hb]
    rw [if_neg (by omega)]
    exact r.fresh p hp
  · intro c l hc
    simp only [setMem] at hc
    simp only [hb]
    split at hc
    · rename_i h; rw [if_pos h]; exact hc
    · rename_i h; rw [if_neg h]; exact r.mem c l hc
  · intro x o hx
    obtain ⟨a, h1, h2⟩ := r.alive x o hx
    refine ⟨a, h1, ?_⟩
    cases o with
    | own l =>
      obtain ⟨b1, b2, b3, b4⟩ := h2
      have := hnb h1 b2
      exact ⟨b1, b2, by simp only [hb]; rw [if_neg this]; exact b3, by simp only [setMem]; rw [if_neg this]; exact b4⟩
    | at_ c n =>
      obtain ⟨b1, l, b2, b3⟩ := h2
      refine ⟨b1, ?_⟩
      by_cases hcb : c = b
      · subst hcb
        rw [hm] at b2; cases b2
        exact ⟨l', by simp [setMem], by omega⟩
      · exact ⟨l, by simp [setMem, hcb, b2], b3⟩
  · intro p hp
    simp only [hb] at hp
    by_cases hpb : p = b
    · exact .inl (by simp [setMem, hpb])
    · rw [if_neg hpb] at hp
      rcases r.acc p hp with h | h
      · exact .inl (by simpa [setMem, hpb] using h)
      · exact .inr h

/-- `x` comes to refer to a program's array. -/
theorem Rep.attach {s : St α} {e : Env α} (r : Rep s e) (x : Nat) {b n : Nat} (hm : Has e b n) {h' : Heap α} (hn : h'.next = s.heap.next)
    (hb : ∀ q, h'.blk q = if owned s x = some q then none else s.heap.blk q) :
    Rep ⟨h', setVar s.var x (some ⟨n, false, b⟩)⟩ (setObj e x (some (.at_ b n))) := by
  refine r.replace x ?_ ?_ (fun _ => Iff.rfl) ?_ ?_ ?_ ?_
  · intro p hp
    rw [hn] at hp
    rw [hb]
    split
    · rfl
    · exact r.fresh p hp
  · intro c l hc
    rw [hb, if_neg]
    · exact r.mem c l hc
    · intro h
      obtain ⟨a, h1, h2, rfl⟩ := owned_iff.1 h
      rw [r.own_mem h1 h2] at hc; cases hc
  · intro b l l' h1 h2; rw [h1] at h2; cases h2; rfl
  · intro y a hyx hy ha
    refine ⟨?_, fun h => by simp at h⟩
    rw [hb, if_neg]
    intro h
    obtain ⟨c, h2, h3, h4⟩ := owned_iff.1 h
    exact hyx (r.inj y x a c hy h2 ha h3 h4.symm)
  · exact ⟨rfl, hm⟩
  · intro p hp
    rw [hb] at hp
    by_cases h1 : owned s x = some p
    · simp [h1] at hp
    · rw [if_neg h1] at hp
      exact .inl ⟨hp, fun a h3 h4 h5 => h1 (owned_iff.2 ⟨a, h3, h4, h5⟩)⟩

/-- The array `x` owns changes. -/
theorem Rep.ownWrite {s : St α} {e : Env α} (r : Rep s e) {x : Nat} {a : AArr} {l l' : List α} (hx : e.obj x = some (.own l)) (ha : s.var x = some a) (hl : l'.length = l.length)
    {h' : Heap α} (hn : h'.next = s.heap.next) (hb : ∀ q, h'.blk q = if q = a.ptr then some l' else s.heap.blk q) : Rep ⟨h', s.var⟩ (setObj e x (some (.own l'))) := by
  obtain ⟨a', h1, h2, h3, h4, h5⟩ := r.alive x _ hx
  rw [ha] at h1; cases h1
  have hlt := r.own_lt ha
  have : setVar s.var x (some a) = s.var := by
    funext y; unfold setVar; split
    · rename_i h; rw [h, ha]
    · rfl
  rw [← this]
  refine r.replace x ?_ ?_ (fun _ => Iff.rfl) ?_ ?_ ?_ ?_
  · intro p hp
    rw [hn] at hp
    rw [hb, if_neg (by omega)]
    exact r.fresh p hp
  · intro c m hc
    rw [hb, if_neg]
    · exact r.mem c m hc
    · rintro rfl; rw [h5] at hc; cases hc
  · intro b l l' h1 h2; rw [h1] at h2; cases h2; rfl
  · intro y c hyx hy hc
    have hne : c.ptr ≠ a.ptr := fun h => hyx (r.inj y x c a hy ha hc h3 h)
    exact ⟨by rw [hb, if_neg hne], fun _ => hne⟩
  · exact ⟨by rw [h2, hl], h3, by rw [hb, if_pos rfl], h5⟩
  · intro p hp
    by_cases h6 : p = a.ptr
    · exact .inr ⟨h3, h6.symm⟩
    · rw [hb, if_neg h6] at hp
      exact .inl ⟨hp, fun c h7 h8 h9 => by rw [ha] at h7; cases h7; exact h6 h9.symm⟩

/-! ## Operations -/

theorem shown_some {e : Env α} {x : Nat} {o : Obj α} (h : e.obj x = some o) : shown e x = o.cells e := by simp [shown, h]

/-- What an operation finds out about a live object. -/
theorem Rep.get {s : St α} {e : Env α} (r : Rep s e) {x : Nat} (hx : e.obj x ≠ none) :
    ∃ a o l, e.obj x = some o ∧ s.var x = some a ∧ ObjOK s.heap e.mem a o ∧ s.heap.blk a.ptr = some l ∧ a.size ≤ l.length ∧ shown e x = l.take a.size ∧ (shown e x).length = a.size := by
  cases h : e.obj x with
  | none => exact absurd h hx
  | some o =>
    obtain ⟨a, h1, h2⟩ := r.alive x o h
    obtain ⟨l, h3, h4, h5, h6⟩ := h2.block r.mem
    rw [shown_some h]
    exact ⟨a, o, l, rfl, h1, h2, h3, h4, h5, h6⟩

/-- `if (own_) delete [] data_` on a heap that still has the block. -/
theorem release_ok {s : St α} {x : Nat} {a : AArr} (ha : s.var x = some a) {h : Heap α} (hb : a.own = true → h.blk a.ptr ≠ none) :
    ∃ h', release h a = .ok h' ∧ h'.next = h.next ∧ ∀ q, h'.blk q = if owned s x = some q then none else h.blk q := by
  unfold release
  cases ho : a.own with
  | false => exact ⟨h, by simp, rfl, fun q => by rw [if_neg]; simp [owned, ha, ho]⟩
  | true =>
    cases h1 : h.blk a.ptr with
    | none => exact absurd h1 (hb ho)
    | some l =>
      refine ⟨{ h with blk := fun q => if q = a.ptr then none else h.blk q }, by simp [delete, h1], rfl, fun q => ?_⟩
      simp only [owned, ha, ho, if_true, Option.some.injEq]
      by_cases hq : q = a.ptr
      · simp [hq]
      · rw [if_neg hq, if_neg (fun h => hq h.symm)]

/-- `resize_internal (n, init, preserve)` with another size. -/
theorem resizeInternal_ok {s : St α} {e : Env α} (r : Rep s e) {x : Nat} {a : AArr} (ha : s.var x = some a) {l : List α} (hl : s.heap.blk a.ptr = some l) (hs : a.size ≤ l.length)
    (junk : Nat → α) {n : Nat} (hn : n ≠ a.size) (init : α) (preserve : Bool) :
    ∃ h', resizeInternal s.heap junk a n init preserve = .ok (⟨n, true, s.heap.next⟩, h') ∧ h'.next = s.heap.next + 1 ∧
      ∀ q, h'.blk q = if owned s x = some q then none else if q = s.heap.next then
        some (if preserve then (l.take a.size).take n ++ List.replicate (n - a.size) init else (List.range n).map junk) else s.heap.blk q := by
  have hlt := r.fresh.lt hl
  simp only [resizeInternal, ne_eq, hn, not_false_eq_true, if_true, Heap.alloc]
  cases preserve with
  | false =>
    simp only [Bool.false_eq_true, if_false, bind_ok]
    obtain ⟨h', e1, e2, e3⟩ := release_ok ha (h := (⟨s.heap.next + 1, fun q => if q = s.heap.next then some ((List.range n).map junk) else s.heap.blk q⟩ : Heap α))
      (fun _ => by simp only []; rw [if_neg (by omega), hl]; simp)
    exact ⟨h', by simp only [e1, bind_ok], e2, e3⟩
  | true =>
    simp only [if_true]
    rw [copyN_spec (ls := l) (ld := (List.range n).map junk) (hs := by simp only []; rw [if_neg (by omega)]; exact hl) (hd := by simp) (hne := by omega) (hn := by omega) (hn' := by simp; omega)]
    simp only [bind_ok]
    rw [fillFrom_spec (ld := l.take (min n a.size) ++ ((List.range n).map junk).drop (min n a.size)) (hd := by simp) (hab := by omega) (hb := by simp; omega)]
    simp only [bind_ok]
    obtain ⟨h', e1, e2, e3⟩ := release_ok ha (h := (⟨s.heap.next + 1, fun q => if q = s.heap.next then
        some ((l.take (min n a.size) ++ ((List.range n).map junk).drop (min n a.size)).take (min n a.size) ++ List.replicate (n - min n a.size) init ++
          (l.take (min n a.size) ++ ((List.range n).map junk).drop (min n a.size)).drop n)
      else if q = s.heap.next then some (l.take (min n a.size) ++ ((List.range n).map junk).drop (min n a.size))
      else if q = s.heap.next then some ((List.range n).map junk) else s.heap.blk q⟩ : Heap α))
      (fun _ => by simp only []; rw [if_neg (by omega), if_neg (by omega), if_neg (by omega), hl]; simp)
    refine ⟨h', by simp only [e1, bind_ok], e2, fun q => ?_⟩
    rw [e3]
    by_cases h1 : owned s x = some q
    · rw [if_pos h1, if_pos h1]
    · rw [if_neg h1, if_neg h1]
      by_cases h2 : q = s.heap.next
      · simp only [h2, if_true]
        congr 1
        rw [List.take_left' (by simp; omega), List.drop_eq_nil_of_le (as := List.take (min n a.size) l ++ _) (by simp; omega), List.append_nil, List.take_take, show n - min n a.size = n - a.size by omega]
      · simp only [h2, if_false]

theorem copyN_self (h : Heap α) (p n : Nat) (l : List α) (hp : h.blk p = some l) (hn : n ≤ l.length) : copyN h (some p) (some p) n = .ok h := by
  have := loop_inv (f := fun k (h : Heap α) => (h.read p k >>= fun v => h.write p k v : M (Heap α))) (n := n) (s := h) (fun _ t => t = h) rfl (by
    rintro k t hk rfl
    refine ⟨t, ?_, rfl⟩
    have h1 : k < l.length := by omega
    simp only [Heap.read, hp, rd_ok h1, bind_ok, Heap.write]
    rw [wr_ok h1]
    simp only [bind_ok]
    cases t with
    | mk nx bk =>
      congr 2
      funext q
      by_cases hq : q = p
      · subst hq
        simp only [if_true, List.set_getElem_self]
        exact hp.symm
      · simp [hq])
  obtain ⟨t, ht, rfl⟩ := this
  exact ht

theorem Rep.ptr_ne {s : St α} {e : Env α} (r : Rep s e) {x y : Nat} (hxy : x ≠ y) {a c : AArr} (ha : s.var x = some a) (hc : s.var y = some c) (ho : a.own = true) : c.ptr ≠ a.ptr := by
  intro hp
  cases hco : c.own with
  | true => exact hxy (r.inj x y a c ha hc ho hco hp.symm)
  | false =>
    cases h1 : e.obj y with
    | none => rw [r.dead y h1] at hc; cases hc
    | some o =>
      obtain ⟨c', h2, h3⟩ := r.alive y o h1
      rw [hc] at h2; cases h2
      cases o with
      | own l => rw [h3.2.1] at hco; cases hco
      | at_ b n =>
        obtain ⟨h4, l, h5, _⟩ := h3
        have := r.own_mem ha ho
        rw [← hp, h4] at this
        rw [this] at h5; cases h5

theorem put_zero (m c : List α) : put m 0 c = c ++ m.drop c.length := by simp [put]

/-- `x = y`. -/
theorem assign_sound {s : St α} {e : Env α} (r : Rep s e) (zero : α) (junk : Nat → α) {x y : Nat} (hx : e.obj x ≠ none) (hy : e.obj y ≠ none) {a c : AArr} (ha : s.var x = some a)
    (hc : s.var y = some c) : ∃ s', assignVars zero junk s x y a c = .ok s' ∧ Rep s' (AdaptorSpec.assign e x y) := by
  unfold assignVars AdaptorSpec.assign
  by_cases hxy : x = y
  · rw [if_pos hxy, if_pos hxy]; exact ⟨s, rfl, r⟩
  rw [if_neg hxy, if_neg hxy]
  obtain ⟨a', o, l, h1, h2, h3, h4, h5, h6, h7⟩ := r.get hx
  rw [ha] at h2; cases h2
  obtain ⟨c', o', lc, g1, g2, g3, g4, g5, g6, g7⟩ := r.get hy
  rw [hc] at g2; cases g2
  rw [h7, g7]
  unfold Adaptor.assign
  by_cases hs : a.size = c.size
  · rw [if_pos hs]
    simp only [resizeInternal, hs, ne_eq, not_true_eq_false, if_false, bind_ok]
    cases o with
    | own l0 =>
      obtain ⟨b1, b2, b3, b4⟩ := h3
      rw [h4] at b3; cases b3
      rw [copyN_spec _ _ _ _ lc l g4 h4 (r.ptr_ne hxy ha hc b2) g5 (by omega)]
      simp only [bind_ok]
      have hself : setVar s.var x (some a) = s.var := by
        funext z; unfold setVar; split
        · rename_i h; rw [h, ha]
        · rfl
      refine ⟨_, rfl, ?_⟩
      rw [hself]
      simp only [write, h1]
      refine r.ownWrite h1 ha ?_ rfl (fun q => ?_)
      · rw [g7]; omega
      · simp only []
        rw [g6, List.drop_eq_nil_of_le (as := l) (by omega), List.append_nil]
    | at_ b n =>
      obtain ⟨b1, m, b2, b3⟩ := h3
      have hbm := r.mem b m b2
      have hself : setVar s.var x (some a) = s.var := by
        funext z; unfold setVar; split
        · rename_i h; rw [h, ha]
        · rfl
      have hap : a.ptr = b := by rw [b1]
      have han : a.size = n := by rw [b1]
      simp only [write, h1, b2, Option.getD_some, put_zero]
      have hlen : (shown e y ++ m.drop (shown e y).length).length = m.length := by simp; omega
      by_cases hp : c.ptr = b
      · have hlm : lc = m := by rw [hp, hbm] at g4; cases g4; rfl
        subst hlm
        rw [hap, hp, copyN_self _ _ _ _ hbm g5]
        simp only [bind_ok]
        refine ⟨_, rfl, ?_⟩
        rw [hself]
        have := r.poke b2 hlen (h' := s.heap) rfl (fun q => ?_)
        · exact this
        · split
          · rename_i h; rw [h, hbm, g6, List.length_take, Nat.min_eq_left g5, List.take_append_drop]
          · rfl
      · rw [hap, copyN_spec _ _ _ _ lc m g4 hbm hp g5 (by omega)]
        simp only [bind_ok]
        refine ⟨_, rfl, ?_⟩
        rw [hself]
        refine r.poke b2 hlen rfl (fun q => ?_)
        simp only []
        rw [g7, g6]
  · rw [if_neg hs]
    obtain ⟨h', e1, e2, e3⟩ := resizeInternal_ok r ha h4 h5 junk (n := c.size) (fun h => hs h.symm) zero false
    simp only [e1, bind_ok, Bool.false_eq_true, if_false] at e3 ⊢
    have hlt := r.own_lt hc
    have hlx := r.own_lt ha
    have hno : owned s x ≠ some c.ptr := by
      intro h
      obtain ⟨a', k1, k2, k3⟩ := owned_iff.1 h
      rw [ha] at k1; cases k1
      exact r.ptr_ne hxy ha hc k2 k3.symm
    have hnn : owned s x ≠ some s.heap.next := by
      intro h
      obtain ⟨a', k1, k2, k3⟩ := owned_iff.1 h
      rw [ha] at k1; cases k1
      omega
    rw [copyN_spec _ _ _ _ lc ((List.range c.size).map junk) (by rw [e3, if_neg hno, if_neg (by omega)]; exact g4) (by rw [e3, if_neg hnn, if_pos rfl]) (by omega) g5 (by simp)]
    simp only [bind_ok]
    refine ⟨_, rfl, ?_⟩
    have := r.new x (h' := ⟨h'.next, fun q => if q = s.heap.next then some (lc.take c.size ++ ((List.range c.size).map junk).drop c.size) else h'.blk q⟩) (l' := shown e y) e2 (fun q => ?_)
    · rw [g7] at this; exact this
    · simp only []
      by_cases hq : q = s.heap.next
      · subst hq
        rw [if_pos rfl, if_neg hnn, if_pos rfl, g6, List.drop_eq_nil_of_le (as := (List.range c.size).map junk) (by simp), List.append_nil]
      · rw [if_neg hq, e3, if_neg hq, if_neg hq]

theorem Rep.none_owned {s : St α} {e : Env α} (r : Rep s e) {x : Nat} (hx : e.obj x = none) : owned s x = none := by simp [owned, r.dead x hx]

theorem set_self {e : Env α} {x : Nat} {o : Obj α} (h : e.obj x = some o) : setObj e x (some o) = e := by
  cases e with
  | mk m ob =>
    simp only [setObj, Env.mk.injEq, true_and]
    funext y
    split
    · rename_i hy; rw [hy]; exact h.symm
    · rfl

/-- Two objects exchange their members. -/
theorem swap_sound {s : St α} {e : Env α} (r : Rep s e) {x y : Nat} (hx : e.obj x ≠ none) (hy : e.obj y ≠ none) {a c : AArr} (ha : s.var x = some a) (hc : s.var y = some c) :
    ∃ s', swapVars s x y a c = .ok s' ∧ Rep s' (AdaptorSpec.swap e x y) := by
  obtain ⟨a', o, _, h1, h2, h3, _⟩ := r.get hx
  rw [ha] at h2; cases h2
  obtain ⟨c', o', _, g1, g2, g3, _⟩ := r.get hy
  rw [hc] at g2; cases g2
  unfold swapVars
  by_cases hxy : x = y
  · subst hxy
    rw [if_pos rfl]
    refine ⟨s, rfl, ?_⟩
    have : AdaptorSpec.swap e x x = e := by
      unfold AdaptorSpec.swap
      rw [h1, set_self h1, set_self h1]
    rw [this]; exact r
  rw [if_neg hxy]
  have hv : ∀ z, setVar (setVar s.var x (some c)) y (some a) z = s.var (if z = y then x else if z = x then y else z) := by
    intro z; simp only [setVar]
    by_cases h4 : z = y
    · simp only [h4, if_true]; exact ha.symm
    · by_cases h5 : z = x
      · simp only [h5, if_true, hxy, if_false]; exact hc.symm
      · simp only [h4, h5, if_false]
  have hob : ∀ z, (AdaptorSpec.swap e x y).obj z = e.obj (if z = y then x else if z = x then y else z) := by
    intro z; simp only [AdaptorSpec.swap, setObj]
    by_cases h4 : z = y
    · simp only [h4, if_true]
    · by_cases h5 : z = x
      · simp only [h5, if_true, hxy, if_false]
      · simp only [h4, h5, if_false]
  have hmm : (AdaptorSpec.swap e x y).mem = e.mem := rfl
  have hinv : ∀ z : Nat, (fun z => if z = y then x else if z = x then y else z) ((fun z => if z = y then x else if z = x then y else z) z) = z := by
    intro z; dsimp only
    by_cases h4 : z = y
    · simp [h4, hxy]
    · by_cases h5 : z = x
      · simp [h5, hxy]
      · simp [h4, h5]
  refine ⟨_, rfl, r.fresh, r.mem, fun z hz => ?_, fun z oz hz => ?_, fun z w b d hz hw hb hd hp => ?_, fun p hp => ?_⟩
  · rw [hob] at hz
    show setVar _ _ _ z = none
    rw [hv]; exact r.dead _ hz
  · rw [hob] at hz
    obtain ⟨b, k1, k2⟩ := r.alive _ _ hz
    exact ⟨b, by show setVar _ _ _ z = some b; rw [hv]; exact k1, k2⟩
  · replace hz : setVar _ _ _ z = some b := hz
    replace hw : setVar _ _ _ w = some d := hw
    rw [hv] at hz hw
    have := r.inj _ _ _ _ hz hw hb hd hp
    rw [← hinv z, ← hinv w]
    dsimp only
    rw [this]
  · rcases r.acc p hp with k | ⟨z, b, k1, k2, k3⟩
    · exact .inl k
    · refine .inr ⟨(if z = y then x else if z = x then y else z), b, ?_, k2, k3⟩
      show setVar _ _ _ _ = some b
      rw [hv]
      have := hinv z
      dsimp only at this
      rw [this]; exact k1

/-- `x` is destroyed. -/
theorem dtor_sound {s : St α} {e : Env α} (r : Rep s e) {x : Nat} (hx : e.obj x ≠ none) {a : AArr} (ha : s.var x = some a) :
    ∃ h', release s.heap a = .ok h' ∧ Rep ⟨h', setVar s.var x none⟩ (setObj e x none) := by
  obtain ⟨a', o, l, h1, h2, h3, h4, _⟩ := r.get hx
  rw [ha] at h2; cases h2
  obtain ⟨h', e1, e2, e3⟩ := release_ok ha (h := s.heap) (fun _ => by rw [h4]; simp)
  have hmem : ∀ b l, e.mem b = some l → owned s x ≠ some b := by
    intro b l hb h
    obtain ⟨c, k1, k2, rfl⟩ := owned_iff.1 h
    rw [r.own_mem k1 k2] at hb; cases hb
  refine ⟨h', e1, ?_, fun b l hb => ?_, fun y hy => ?_, fun y oy hy => ?_, fun y z b d hy hz hb hd hp => ?_, fun p hp => ?_⟩
  · intro p hp
    replace hp : h'.next ≤ p := hp
    show h'.blk p = none
    rw [e3]; split
    · rfl
    · exact r.fresh p (by omega)
  · show h'.blk b = some l
    rw [e3, if_neg (hmem b l hb)]; exact r.mem b l hb
  · show setVar _ _ _ y = none
    simp only [setObj] at hy
    unfold setVar
    split
    · rfl
    · rename_i h; rw [if_neg h] at hy; exact r.dead y hy
  · simp only [setObj] at hy
    by_cases hyx : y = x
    · rw [if_pos hyx] at hy; cases hy
    · rw [if_neg hyx] at hy
      obtain ⟨b, k1, k2⟩ := r.alive y oy hy
      refine ⟨b, by show setVar _ _ _ y = some b; rw [setVar, if_neg hyx]; exact k1, ?_⟩
      cases oy with
      | own m =>
        obtain ⟨m1, m2, m3, m4⟩ := k2
        refine ⟨m1, m2, ?_, m4⟩
        show h'.blk b.ptr = some m
        rw [e3, if_neg]
        · exact m3
        · intro h
          obtain ⟨c, n1, n2, n3⟩ := owned_iff.1 h
          exact hyx (r.inj y x b c k1 n1 m2 n2 n3.symm)
      | at_ c n => exact k2
  · replace hy : setVar _ _ _ y = some b := hy
    replace hz : setVar _ _ _ z = some d := hz
    unfold setVar at hy hz
    split at hy
    · cases hy
    · split at hz
      · cases hz
      · exact r.inj y z b d hy hz hb hd hp
  · replace hp : h'.blk p ≠ none := hp
    rw [e3] at hp
    by_cases h5 : owned s x = some p
    · rw [if_pos h5] at hp; exact absurd rfl hp
    · rw [if_neg h5] at hp
      rcases r.acc p hp with k | ⟨z, b, k1, k2, k3⟩
      · exact .inl k
      · refine .inr ⟨z, b, ?_, k2, k3⟩
        have : z ≠ x := by rintro rfl; exact h5 (owned_iff.2 ⟨b, k1, k2, k3⟩)
        show setVar _ _ _ z = some b
        rw [setVar, if_neg this]; exact k1

/-- The name keeps its object but the object takes another size: only the size member changes. -/
theorem setVar_setVar (f : Nat → Option AArr) (x : Nat) (u v : Option AArr) : setVar (setVar f x u) x v = setVar f x v := by
  funext y; unfold setVar; split <;> simp_all

/-- `resize_internal (n, data, init, preserve)`, the adaptor already referring to `data`. -/
theorem resizeAt_same {s : St α} {e : Env α} (r : Rep s e) {x b k n : Nat} (hx : e.obj x = some (.at_ b k)) {a : AArr} (ha : s.var x = some a) (hh : Has e b n) (v : α) (pres : Bool) :
    ∃ a' h', resizeAt s.heap a n b v pres = .ok (a', h') ∧
      Rep ⟨h', setVar s.var x (some a')⟩ (setObj (setMem e b (put ((e.mem b).getD []) k (List.replicate (n - k) v))) x (some (.at_ b n))) := by
  obtain ⟨a0, h1, rfl, m, h3, h4⟩ := r.alive x _ hx
  rw [ha] at h1; cases h1
  obtain ⟨m', g1, g2⟩ := hh
  rw [h3] at g1; cases g1
  have hbm := r.mem b m h3
  unfold resizeAt
  simp only [ne_eq, not_true_eq_false, if_false, h3, Option.getD_some]
  rw [fillFrom_spec _ _ _ _ v m hbm (by omega) g2]
  simp only [bind_ok]
  refine ⟨_, _, rfl, ?_⟩
  have hp : (put m k (List.replicate (n - k) v)) = m.take (min n k) ++ List.replicate (n - min n k) v ++ m.drop n := by
    unfold put
    rcases Nat.le_total n k with h | h
    · rw [Nat.min_eq_left h, show n - k = 0 by omega, Nat.sub_self]; simp
    · rw [Nat.min_eq_right h, List.length_replicate, show k + (n - k) = n by omega]
  have r1 := r.poke (b := b) (m := m) (l' := put m k (List.replicate (n - k) v)) h3 (by unfold put; simp; omega)
    (h' := ⟨s.heap.next, fun q => if q = b then some (m.take (min n k) ++ List.replicate (n - min n k) v ++ m.drop n) else s.heap.blk q⟩) rfl (fun q => by rw [hp])
  have r2 := r1.attach x (b := b) (n := n) ⟨_, if_pos rfl, by unfold put; simp; omega⟩ rfl (fun q => by
    rw [if_neg]
    intro h
    obtain ⟨c, k1, k2, _⟩ := owned_iff.1 h
    replace k1 : s.var x = some c := k1
    rw [ha] at k1; cases k1; cases k2)
  exact r2

/-- ... and otherwise. -/
theorem resizeAt_other {s : St α} {e : Env α} (r : Rep s e) {x b n : Nat} (hx : e.obj x ≠ none) (hne : ∀ k, e.obj x ≠ some (.at_ b k)) {a : AArr} (ha : s.var x = some a) (hh : Has e b n) (v : α)
    (pres : Bool) : ∃ a' h', resizeAt s.heap a n b v pres = .ok (a', h') ∧
      Rep ⟨h', setVar s.var x (some a')⟩ (setObj (if pres then setMem e b (put ((e.mem b).getD []) 0 ((shown e x).take n ++ List.replicate (n - (shown e x).length) v)) else e) x
        (some (.at_ b n))) := by
  obtain ⟨a', o, l, h1, h2, h3, h4, h5, h6, h7⟩ := r.get hx
  rw [ha] at h2; cases h2
  obtain ⟨m, g1, g2⟩ := hh
  have hbm := r.mem b m g1
  have hpb : a.ptr ≠ b := by
    rintro rfl
    cases o with
    | own l0 => rw [h3.2.2.2] at g1; cases g1
    | at_ c k => obtain ⟨k1, _⟩ := h3; rw [k1] at hne; exact hne k h1
  unfold resizeAt
  rw [if_pos (fun h => hpb h.symm)]
  cases pres with
  | false =>
    simp only [Bool.false_eq_true, if_false, bind_ok]
    obtain ⟨h', e1, e2, e3⟩ := release_ok ha (h := s.heap) (fun _ => by rw [h4]; simp)
    simp only [e1, bind_ok]
    exact ⟨_, _, rfl, r.attach x ⟨m, g1, g2⟩ e2 e3⟩
  | true =>
    simp only [if_true]
    rw [copyN_spec _ _ _ _ l m h4 hbm hpb (by omega) (by omega)]
    simp only [bind_ok]
    rw [fillFrom_spec (ld := l.take (min n a.size) ++ m.drop (min n a.size)) (hd := by simp) (hab := by omega) (hb := by simp; omega)]
    simp only [bind_ok, g1, Option.getD_some, put_zero, h7]
    rw [h6]
    have hl : (((l.take a.size).take n ++ List.replicate (n - a.size) v) ++ m.drop ((l.take a.size).take n ++ List.replicate (n - a.size) v).length).length = m.length := by simp; omega
    have r1 := r.poke (b := b) (m := m) g1 hl (h' := ⟨s.heap.next, fun q => if q = b then
          some ((l.take (min n a.size) ++ m.drop (min n a.size)).take (min n a.size) ++ List.replicate (n - min n a.size) v ++ (l.take (min n a.size) ++ m.drop (min n a.size)).drop n)
        else if q = b then some (l.take (min n a.size) ++ m.drop (min n a.size)) else s.heap.blk q⟩) rfl (fun q => by
      by_cases hq : q = b
      · simp only [hq, if_true]
        congr 1
        rw [List.take_left' (by simp; omega), List.take_take, show n - min n a.size = n - a.size by omega]
        congr 1
        rw [List.drop_append, List.drop_eq_nil_of_le (as := l.take _) (by simp; omega), List.nil_append, List.drop_drop]
        congr 1
        simp; omega
      · simp only [hq, if_false])
    obtain ⟨h', e1, e2, e3⟩ := release_ok ha (h := (⟨s.heap.next, fun q => if q = b then
          some ((l.take (min n a.size) ++ m.drop (min n a.size)).take (min n a.size) ++ List.replicate (n - min n a.size) v ++ (l.take (min n a.size) ++ m.drop (min n a.size)).drop n)
        else if q = b then some (l.take (min n a.size) ++ m.drop (min n a.size)) else s.heap.blk q⟩ : Heap α)) (fun _ => by simp only []; rw [if_neg hpb, if_neg hpb, h4]; simp)
    simp only [e1, bind_ok]
    exact ⟨_, _, rfl, r1.attach x ⟨_, if_pos rfl, by rw [hl]; exact g2⟩ e2 e3⟩

theorem live_ok {s : St α} {x : Nat} {a : AArr} (h : s.var x = some a) : live s x = .ok a := by simp [live, h]

theorem write_blk {h : Heap α} {p i : Nat} {l : List α} (hl : h.blk p = some l) (hi : i < l.length) (v : α) :
    h.write p i v = .ok ⟨h.next, fun q => if q = p then some (l.set i v) else h.blk q⟩ := by
  simp [Heap.write, hl, wr_ok hi, bind_ok]

/-- Every operation does what the specification says. -/
theorem step_sound (dbg : Bool) (zero : α) (junk : Nat → α) {s : St α} {e : Env α} (r : Rep s e) (op : Op α) (hl : legal e op) :
    ∃ s', Adaptor.step dbg zero junk s op = .ok s' ∧ Rep s' (AdaptorSpec.step zero junk e op) := by
  cases op with
  | ctor x n =>
    simp only [Adaptor.step, Adaptor.ctor, Heap.alloc, bind_ok]
    refine ⟨_, rfl, ?_⟩
    have := r.new x (h' := ⟨s.heap.next + 1, fun q => if q = s.heap.next then some ((List.range n).map junk) else s.heap.blk q⟩) (l' := (List.range n).map junk) rfl
      (fun q => by rw [r.none_owned hl]; simp)
    simpa [AdaptorSpec.step] using this
  | ctorInit x n v =>
    simp only [Adaptor.step, Adaptor.ctorInit, Heap.alloc]
    rw [fillFrom_spec (ld := (List.range n).map junk) (hd := by simp) (hab := Nat.zero_le _) (hb := by simp)]
    simp only [bind_ok]
    refine ⟨_, rfl, ?_⟩
    have := r.new x (h' := ⟨s.heap.next + 1, fun q => if q = s.heap.next then some (((List.range n).map junk).take 0 ++ List.replicate (n - 0) v ++ ((List.range n).map junk).drop n) else
      if q = s.heap.next then some ((List.range n).map junk) else s.heap.blk q⟩) (l' := List.replicate n v) rfl
      (fun q => by
        rw [r.none_owned hl]
        by_cases hq : q = s.heap.next
        · simp [hq]
        · simp [hq])
    rw [List.length_replicate] at this
    exact this
  | adopt x n b =>
    obtain ⟨h1, h2⟩ := hl
    exact ⟨_, rfl, r.attach x h2 rfl (fun q => by rw [r.none_owned h1]; simp)⟩
  | copyCtor x y =>
    obtain ⟨h1, h2⟩ := hl
    obtain ⟨c, o, l, g1, g2, g3, g4, g5, g6, g7⟩ := r.get h2
    have hlt := r.own_lt g2
    simp only [Adaptor.step, live_ok g2, bind_ok, Adaptor.copyCtor, Heap.alloc, Adaptor.assign, resizeInternal, ne_eq, not_true_eq_false, if_false]
    rw [copyN_spec (ls := l) (ld := (List.range c.size).map junk) (hs := by simp only []; rw [if_neg (by omega)]; exact g4) (hd := by simp) (hne := by omega) (hn := g5) (hn' := by simp)]
    simp only [bind_ok]
    refine ⟨_, rfl, ?_⟩
    have := r.new x (h' := ⟨s.heap.next + 1, fun q => if q = s.heap.next then some (l.take c.size ++ ((List.range c.size).map junk).drop c.size) else
      if q = s.heap.next then some ((List.range c.size).map junk) else s.heap.blk q⟩) (l' := shown e y) rfl
      (fun q => by
        rw [r.none_owned h1, g6]
        by_cases hq : q = s.heap.next
        · simp [hq]
        · simp [hq])
    rw [g7] at this
    exact this
  | dtor x =>
    obtain ⟨a, o, l, h1, h2, _⟩ := r.get hl
    obtain ⟨h', e1, e2⟩ := dtor_sound r hl h2
    simp only [Adaptor.step, live_ok h2, bind_ok, e1]
    exact ⟨_, rfl, e2⟩
  | resize x n =>
    obtain ⟨a, o, l, h1, h2, h3, h4, h5, h6, h7⟩ := r.get hl
    simp only [Adaptor.step, live_ok h2, bind_ok, AdaptorSpec.step, h7]
    by_cases hn : a.size = n
    · rw [if_pos hn]
      simp only [resizeInternal, hn, ne_eq, not_true_eq_false, if_false, bind_ok]
      refine ⟨_, rfl, ?_⟩
      have : setVar s.var x (some a) = s.var := by funext z; unfold setVar; split <;> simp_all
      rw [this]; exact r
    · rw [if_neg hn]
      obtain ⟨h', e1, e2, e3⟩ := resizeInternal_ok r h2 h4 h5 junk (fun h => hn h.symm) zero false
      simp only [e1, bind_ok]
      refine ⟨_, rfl, ?_⟩
      have := r.new x e2 e3
      simpa using this
  | resizeInit x n v =>
    obtain ⟨a, o, l, h1, h2, h3, h4, h5, h6, h7⟩ := r.get hl
    simp only [Adaptor.step, live_ok h2, bind_ok, AdaptorSpec.step, h7]
    by_cases hn : a.size = n
    · rw [if_pos hn]
      simp only [resizeInternal, hn, ne_eq, not_true_eq_false, if_false, bind_ok]
      refine ⟨_, rfl, ?_⟩
      have : setVar s.var x (some a) = s.var := by funext z; unfold setVar; split <;> simp_all
      rw [this]; exact r
    · rw [if_neg hn]
      obtain ⟨h', e1, e2, e3⟩ := resizeInternal_ok r h2 h4 h5 junk (fun h => hn h.symm) v true
      simp only [e1, bind_ok]
      refine ⟨_, rfl, ?_⟩
      have := r.new x e2 e3
      simp only [if_true] at this
      rw [show ((l.take a.size).take n ++ List.replicate (n - a.size) v).length = n by simp; omega, ← h6] at this
      exact this
  | attach x n b =>
    obtain ⟨hx, hh⟩ := hl
    obtain ⟨a, o, l, h1, h2, h3, h4, h5, h6, h7⟩ := r.get hx
    simp only [Adaptor.step, live_ok h2, bind_ok, AdaptorSpec.step]
    cases o with
    | own l0 =>
      obtain ⟨a', h', e1, e2⟩ := resizeAt_other r hx (b := b) (fun k => by rw [h1]; simp) h2 hh zero false
      simp only [e1, bind_ok, h1]
      exact ⟨_, rfl, by simpa using e2⟩
    | at_ c k =>
      by_cases hc : c = b
      · subst hc
        obtain ⟨a', h', e1, e2⟩ := resizeAt_same r h1 h2 hh zero false
        simp only [e1, bind_ok, h1, if_true]
        exact ⟨_, rfl, e2⟩
      · obtain ⟨a', h', e1, e2⟩ := resizeAt_other r hx (b := b) (fun k => by rw [h1]; simp [hc]) h2 hh zero false
        simp only [e1, bind_ok, h1, hc, if_false]
        exact ⟨_, rfl, by simpa using e2⟩
  | attachInit x n b v =>
    obtain ⟨hx, hh⟩ := hl
    obtain ⟨a, o, l, h1, h2, h3, h4, h5, h6, h7⟩ := r.get hx
    simp only [Adaptor.step, live_ok h2, bind_ok, AdaptorSpec.step]
    cases o with
    | own l0 =>
      obtain ⟨a', h', e1, e2⟩ := resizeAt_other r hx (b := b) (fun k => by rw [h1]; simp) h2 hh v true
      simp only [e1, bind_ok, h1]
      exact ⟨_, rfl, by simpa using e2⟩
    | at_ c k =>
      by_cases hc : c = b
      · subst hc
        obtain ⟨a', h', e1, e2⟩ := resizeAt_same r h1 h2 hh v true
        simp only [e1, bind_ok, h1, if_true]
        exact ⟨_, rfl, e2⟩
      · obtain ⟨a', h', e1, e2⟩ := resizeAt_other r hx (b := b) (fun k => by rw [h1]; simp [hc]) h2 hh v true
        simp only [e1, bind_ok, h1, hc, if_false]
        exact ⟨_, rfl, by simpa using e2⟩
  | assign x y =>
    obtain ⟨a, o, l, h1, h2, _⟩ := r.get hl.1
    obtain ⟨c, o', l', g1, g2, _⟩ := r.get hl.2
    simp only [Adaptor.step, live_ok h2, live_ok g2, bind_ok, AdaptorSpec.step]
    exact assign_sound r zero junk hl.1 hl.2 h2 g2
  | assignTemporary x y =>
    obtain ⟨a, o, l, h1, h2, h3, _⟩ := r.get hl.1
    obtain ⟨c, o', l', g1, g2, g3, _⟩ := r.get hl.2
    simp only [Adaptor.step, live_ok h2, live_ok g2, bind_ok, AdaptorSpec.step, h1, g1]
    cases o with
    | own l0 =>
      cases o' with
      | own l1 =>
        simp only [h3.2.1, g3.2.1, Bool.and_self, if_true]
        exact swap_sound r hl.1 hl.2 h2 g2
      | at_ d k =>
        rw [show c.own = false by rw [g3.1]]
        simp only [Bool.and_false, Bool.false_eq_true, if_false]
        exact assign_sound r zero junk hl.1 hl.2 h2 g2
    | at_ d k =>
      rw [show a.own = false by rw [h3.1]]
      simp only [Bool.false_and, Bool.false_eq_true, if_false]
      exact assign_sound r zero junk hl.1 hl.2 h2 g2
  | swap x y =>
    obtain ⟨a, o, l, h1, h2, _⟩ := r.get hl.1
    obtain ⟨c, o', l', g1, g2, _⟩ := r.get hl.2
    simp only [Adaptor.step, live_ok h2, live_ok g2, bind_ok, AdaptorSpec.step]
    exact swap_sound r hl.1 hl.2 h2 g2
  | store x i v =>
    obtain ⟨hx, hi⟩ := hl
    obtain ⟨a, o, l, h1, h2, h3, h4, h5, h6, h7⟩ := r.get hx
    have hia : i < a.size := by omega
    simp only [Adaptor.step, live_ok h2, bind_ok, Adaptor.store, check_true hia, write_blk h4 (show i < l.length by omega), AdaptorSpec.step]
    refine ⟨_, rfl, ?_⟩
    cases o with
    | own l0 =>
      obtain ⟨b1, b2, b3, b4⟩ := h3
      rw [h4] at b3; cases b3
      simp only [write, h1]
      refine r.ownWrite h1 h2 (by rw [h6]; simp [b1]) rfl (fun q => ?_)
      simp only []
      rw [h6, List.take_of_length_le (by omega)]
    | at_ b n =>
      obtain ⟨b1, m, b2, b3⟩ := h3
      have hap : a.ptr = b := by rw [b1]
      have han : a.size = n := by rw [b1]
      have hlm : l = m := by have := r.mem b m b2; rw [hap] at h4; rw [h4] at this; cases this; rfl
      subst hlm
      simp only [write, h1, b2, Option.getD_some, put_zero]
      refine r.poke b2 (by rw [h6]; simp; omega) rfl (fun q => ?_)
      simp only []
      rw [hap, h6]
      congr 2
      rw [List.length_set, List.length_take, Nat.min_eq_left h5, ← List.set_append_left _ _ (by simp; omega), List.take_append_drop]
  | poke b i v =>
    obtain ⟨m, h1, h2⟩ := hl
    simp only [Adaptor.step, write_blk (r.mem b m h1) (show i < m.length by omega), bind_ok, AdaptorSpec.step, h1, Option.getD_some]
    exact ⟨_, rfl, r.poke h1 (by simp) rfl (fun _ => rfl)⟩

theorem run_sound (dbg : Bool) (zero : α) : ∀ (ops : List (Op α × (Nat → α))) {s : St α} {e : Env α}, Rep s e → legalRun zero e ops →
    ∃ s', Adaptor.run dbg zero s ops = .ok s' ∧ Rep s' (AdaptorSpec.run zero e ops)
  | [], s, e, r, _ => ⟨s, rfl, r⟩
  | (op, junk) :: ops, s, e, r, h => by
    obtain ⟨s', e1, r1⟩ := step_sound dbg zero junk r op h.1
    obtain ⟨s'', e2, r2⟩ := run_sound dbg zero ops r1 h.2
    exact ⟨s'', by simp only [Adaptor.run, e1, bind_ok, e2], r2⟩

theorem Rep.observes {s : St α} {e : Env α} (r : Rep s e) (dbg : Bool) : Observes dbg s e ∧ NoLeak s e := by
  refine ⟨⟨fun x => ⟨r.dead x, fun hx => ?_⟩, r.mem⟩, fun p hp => ?_, fun x y n m p hx hy => r.inj x y _ _ hx hy rfl rfl rfl⟩
  · obtain ⟨a, o, l, h1, h2, h3, h4, h5, h6, h7⟩ := r.get hx
    refine ⟨a, h2, h7.symm, fun i v hi => ?_⟩
    have hlt : i < (shown e x).length := (List.getElem?_eq_some_iff.1 hi).1
    have hia : i < a.size := by omega
    rw [h6, List.getElem?_take, if_pos hia] at hi
    simp only [index, check_true hia, bind_ok, Heap.read, h4]
    exact rd_eq_ok.2 hi
  · rcases r.acc p hp with h | ⟨x, ⟨n, o, q⟩, h1, h2, h3⟩
    · exact .inl h
    · simp only at h2 h3
      subst h2; subst h3
      exact .inr ⟨x, n, h1⟩

/-- The state a program starts in: its own arrays, no adaptors. -/
def start (next : Nat) (mem : Nat → Option (List α)) : St α := ⟨⟨next, mem⟩, fun _ => none⟩

/-- **C99.** Any history of legal operations on any number of `array_adaptor`s and on the program's own arrays runs without fault and leaves exactly the contents the specification gives, in every
adaptor and every array of the program; nothing leaks and no block has two owners. -/
theorem C99_value_semantics (dbg : Bool) (zero : α) (next : Nat) (mem : Nat → Option (List α)) (hm : ∀ p, next ≤ p → mem p = none) (ops : List (Op α × (Nat → α)))
    (hl : legalRun zero ⟨mem, fun _ => none⟩ ops) :
    ∃ s, Adaptor.run dbg zero (start next mem) ops = .ok s ∧ Observes dbg s (AdaptorSpec.run zero ⟨mem, fun _ => none⟩ ops) ∧ NoLeak s (AdaptorSpec.run zero ⟨mem, fun _ => none⟩ ops) := by
  have r : Rep (start next mem) (⟨mem, fun _ => none⟩ : Env α) :=
    ⟨hm, fun _ _ h => h, fun _ _ => rfl, fun _ _ h => by simp at h, fun _ _ _ _ h => by simp [start] at h, fun _ h => .inl h⟩
  obtain ⟨s, e1, r1⟩ := run_sound dbg zero ops r hl
  exact ⟨s, e1, r1.observes dbg⟩

theorem setMem_dom {e : Env α} {c : Nat} (hc : e.mem c ≠ none) (l : List α) (b : Nat) : (setMem e c l).mem b = none ↔ e.mem b = none := by
  simp only [setMem]
  by_cases h : b = c
  · subst h; simp [hc]
  · rw [if_neg h]

theorem has_ne {e : Env α} {b n : Nat} (h : Has e b n) : e.mem b ≠ none := by obtain ⟨l, h1, _⟩ := h; rw [h1]; simp

theorem write_dom {s : St α} {e : Env α} (r : Rep s e) (x : Nat) (c : List α) (b : Nat) : (write e x c).mem b = none ↔ e.mem b = none := by
  unfold write
  split
  · exact Iff.rfl
  · rename_i d n hx
    obtain ⟨a, _, _, l, h1, _⟩ := r.alive x _ hx
    exact setMem_dom (by rw [h1]; simp) _ _
  · exact Iff.rfl

theorem assign_dom {s : St α} {e : Env α} (r : Rep s e) (x y b : Nat) : (AdaptorSpec.assign e x y).mem b = none ↔ e.mem b = none := by
  unfold AdaptorSpec.assign
  split
  · exact Iff.rfl
  · split
    · exact write_dom r x _ b
    · exact Iff.rfl

/-- The program's arrays stay the program's. -/
theorem step_dom (zero : α) (junk : Nat → α) {s : St α} {e : Env α} (r : Rep s e) (op : Op α) (hl : legal e op) (b : Nat) :
    (AdaptorSpec.step zero junk e op).mem b = none ↔ e.mem b = none := by
  cases op with
  | ctor x n => exact Iff.rfl
  | ctorInit x n v => exact Iff.rfl
  | adopt x n c => exact Iff.rfl
  | copyCtor x y => exact Iff.rfl
  | dtor x => exact Iff.rfl
  | resize x n => simp only [AdaptorSpec.step]; split <;> exact Iff.rfl
  | resizeInit x n v => simp only [AdaptorSpec.step]; split <;> exact Iff.rfl
  | attach x n c =>
    simp only [AdaptorSpec.step]
    split
    · split
      · exact setMem_dom (has_ne hl.2) _ _
      · exact Iff.rfl
    · exact Iff.rfl
  | attachInit x n c v =>
    simp only [AdaptorSpec.step]
    split
    · split
      · exact setMem_dom (has_ne hl.2) _ _
      · exact setMem_dom (has_ne hl.2) _ _
    · exact setMem_dom (has_ne hl.2) _ _
  | assign x y => exact assign_dom r x y b
  | assignTemporary x y =>
    simp only [AdaptorSpec.step]
    split
    · exact Iff.rfl
    · exact assign_dom r x y b
  | swap x y => exact Iff.rfl
  | store x i v => exact write_dom r x _ b
  | poke c i v => exact setMem_dom (has_ne hl) _ _

theorem run_dom (zero : α) : ∀ (ops : List (Op α × (Nat → α))) {s : St α} {e : Env α}, Rep s e → legalRun zero e ops → ∀ b, (AdaptorSpec.run zero e ops).mem b = none ↔ e.mem b = none
  | [], _, _, _, _, _ => Iff.rfl
  | (op, junk) :: ops, s, e, r, h, b => by
    obtain ⟨s', _, r1⟩ := step_sound false zero junk r op h.1
    exact (run_dom zero ops r1 h.2 b).trans (step_dom zero junk r op h.1 b)

/-- **C99.** When every adaptor has been destroyed, exactly the program's own arrays are left: adaptors free all memory they obtained and never free an array they only refer to. -/
theorem C99_all_destroyed (dbg : Bool) (zero : α) (next : Nat) (mem : Nat → Option (List α)) (hm : ∀ p, next ≤ p → mem p = none) (ops : List (Op α × (Nat → α)))
    (hl : legalRun zero ⟨mem, fun _ => none⟩ ops) (hd : ∀ x, (AdaptorSpec.run zero ⟨mem, fun _ => none⟩ ops).obj x = none) :
    ∃ s, Adaptor.run dbg zero (start next mem) ops = .ok s ∧ ∀ p, s.heap.blk p = none ↔ mem p = none := by
  have r : Rep (start next mem) (⟨mem, fun _ => none⟩ : Env α) :=
    ⟨hm, fun _ _ h => h, fun _ _ => rfl, fun _ _ h => by simp at h, fun _ _ _ _ h => by simp [start] at h, fun _ h => .inl h⟩
  obtain ⟨s, e1, r1⟩ := run_sound dbg zero ops r hl
  refine ⟨s, e1, fun p => ?_⟩
  rw [← run_dom zero ops r hl p]
  constructor
  · intro h
    cases h1 : (AdaptorSpec.run zero ⟨mem, fun _ => none⟩ ops).mem p with
    | none => rfl
    | some l => rw [r1.mem p l h1] at h; cases h
  · intro h
    cases h1 : s.heap.blk p with
    | none => rfl
    | some l =>
      rcases r1.acc p (by rw [h1]; simp) with h2 | ⟨x, a, h2, _⟩
      · exact absurd h h2
      · rw [r1.dead x (hd x)] at h2; cases h2

/-- **C99.** With checks on, an index outside `[0, size)` is refused, for reading and writing, whatever the adaptor is and even if the array it refers to is longer. -/
theorem C99_out_of_range_rejected (h : Heap α) (a : AArr) (i : Nat) (v : α) (hi : a.size ≤ i) :
    Adaptor.index true h a i = .error .badIndex ∧ Adaptor.store true h a i v = .error .badIndex := by
  have : ¬ i < a.size := by omega
  simp [Adaptor.index, Adaptor.store, check, this, Bind.bind, Except.bind]

/-- Non-vacuity: an adaptor over an array of the program and one with an array of its own; assignment of equal sizes writes through to the program's array, of another size detaches; both are
destroyed. -/
example : let mem : Nat → Option (List Nat) := fun p => if p = 0 then some [1, 2, 3, 4] else none
    let j : Nat → Nat := fun _ => 77
    let ops : List (Op Nat × (Nat → Nat)) := [(.adopt 0 3 0, j), (.ctorInit 1 3 9, j), (.assign 0 1, j), (.store 0 0 5, j), (.attach 0 4 0, j), (.copyCtor 2 0, j), (.assign 0 1, j), (.dtor 0, j), (.dtor 1, j)]
    legalRun 0 ⟨mem, fun _ => none⟩ ops ∧ (AdaptorSpec.run 0 ⟨mem, fun _ => none⟩ ops).mem 0 = some [5, 9, 9, 0] ∧ shown (AdaptorSpec.run 0 ⟨mem, fun _ => none⟩ ops) 2 = [5, 9, 9, 0] ∧
    ∃ s, Adaptor.run true 0 (start 1 mem) ops = .ok s ∧ s.heap.blk 0 = some [5, 9, 9, 0] ∧ (s.var 2).map AArr.size = some 4 := by
  refine ⟨?_, by decide, by decide, _, rfl, by decide, by decide⟩
  simp [legalRun, legal, Has, AdaptorSpec.step, setObj, AdaptorSpec.assign, shown, Obj.cells, write, setMem, put]

end Ublas.Adaptor
