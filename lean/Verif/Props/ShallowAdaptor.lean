import Verif.Spec.ShallowAdaptor
import Verif.Lemmas.Storage
import Verif.Props.ArrayAdaptor
import Mathlib.Tactic.ByContra
import Mathlib.Data.List.Nodup
/-! # C122: shallow_array_adaptor: shared elements, counted references -/
namespace Ublas.Shallow
open Storage ShallowSpec
variable {α : Type}

/-- Who holds a `shared_array`: a named adaptor `(false, x)` or a local variable of the library `(true, i)`. -/
abbrev Key := Bool × Nat

/-- Function update. -/
def upd {β : Type} (K : Key → Option β) (k : Key) (v : Option β) : Key → Option β := fun j => if j = k then v else K j

@[simp] theorem upd_same {β : Type} (K : Key → Option β) (k : Key) (v : Option β) : upd K k v k = v := by simp [upd]
theorem upd_ne {β : Type} (K : Key → Option β) {k j : Key} (v : Option β) (h : j ≠ k) : upd K k v j = K j := by simp [upd, h]

/-- Array `p` is the program's or somebody holds it. -/
def Alive (prog : Nat → Prop) (K : Key → Option Shared) (p : Nat) : Prop := prog p ∨ ∃ k s, K k = some s ∧ s.ptr = p

/-- The memory is as it should be when the holders are `K` and the arrays contain `mem`. -/
structure Core (prog : Nat → Prop) (m : Mem α) (next : Nat) (mem : Nat → Option (List α)) (K : Key → Option Shared) : Prop where
  nxt : m.heap.next = next
  live : ∀ p, Alive prog K p → m.heap.blk p = mem p
  dead : ∀ p, ¬ Alive prog K p → m.heap.blk p = .none
  nil : ∀ c, m.ctl c = .none → ∀ k s, K k = some s → s.ctl ≠ c
  count : ∀ c t, m.ctl c = some t → t.count ≠ 0 ∧ ∃ L : List Key, L.Nodup ∧ (∀ k, k ∈ L ↔ ∃ s, K k = some s ∧ s.ctl = c) ∧ L.length = t.count
  ptr : ∀ k s t, K k = some s → m.ctl s.ctl = some t → t.ptr = s.ptr
  del : ∀ c t, m.ctl c = some t → (t.deletes = true ↔ ¬ prog t.ptr)
  uniq : ∀ c c' t t', m.ctl c = some t → m.ctl c' = some t' → t.deletes = true → t.ptr = t'.ptr → c = c'
  has : ∀ p, Alive prog K p → mem p ≠ none
  fresh : ∀ p, next ≤ p → mem p = none
  freshCtl : ∀ c, m.nextCtl ≤ c → m.ctl c = none

namespace Core
variable {prog : Nat → Prop} {m : Mem α} {next : Nat} {mem : Nat → Option (List α)} {K : Key → Option Shared}

theorem alive_lt (r : Core prog m next mem K) {p : Nat} (h : Alive prog K p) : p < next := by
  by_contra hc
  exact r.has p h (r.fresh p (by omega))

theorem alive_key {k : Key} {s : Shared} (h : K k = some s) : Alive prog K s.ptr := .inr ⟨k, s, h, rfl⟩

theorem ctl_of (r : Core prog m next mem K) {k : Key} {s : Shared} (h : K k = some s) : ∃ t, m.ctl s.ctl = some t ∧ t.ptr = s.ptr := by
  cases hc : m.ctl s.ctl with
  | none => exact absurd rfl (r.nil _ hc k s h)
  | some t => exact ⟨t, rfl, r.ptr k s t h hc⟩

/-- A new control block for array `p`: an array just made, or one of the program. -/
theorem addKey (r : Core prog m next mem K) {k : Key} (hk : K k = .none) {p : Nat} {d : Bool} {m' : Mem α} {next' : Nat} {mem' : Nat → Option (List α)}
    (h1 : m'.heap.next = next') (h2 : m'.nextCtl = m.nextCtl + 1)
    (hctl : ∀ c, m'.ctl c = if c = m.nextCtl then some ⟨1, d, p⟩ else m.ctl c)
    (hblk : ∀ q, m'.heap.blk q = if q = p then mem' p else m.heap.blk q)
    (hmem : ∀ q, q ≠ p → mem' q = mem q) (hp : mem' p ≠ .none) (hf : ∀ q, next' ≤ q → mem' q = .none)
    (hd : d = true ↔ ¬ prog p) (hn : d = true → ¬ Alive prog K p) :
    Core prog m' next' mem' (upd K k (some ⟨p, m.nextCtl⟩)) := by
  have alive_iff : ∀ q, Alive prog (upd K k (some ⟨p, m.nextCtl⟩)) q ↔ q = p ∨ Alive prog K q := by
    intro q
    constructor
    · rintro (h | ⟨j, s, h, e⟩)
      · exact .inr (.inl h)
      · by_cases hj : j = k
        · subst hj; rw [upd_same] at h; cases h; exact .inl e.symm
        · rw [upd_ne _ _ hj] at h; exact .inr (.inr ⟨j, s, h, e⟩)
    · rintro (rfl | h | ⟨j, s, h, e⟩)
      · exact .inr ⟨k, _, upd_same _ _ _, rfl⟩
      · exact .inl h
      · refine .inr ⟨j, s, ?_, e⟩
        rw [upd_ne _ _ (by rintro rfl; rw [hk] at h; cases h)]; exact h
  have keylt : ∀ j s, K j = some s → s.ctl ≠ m.nextCtl := fun j s h => r.nil _ (r.freshCtl _ (Nat.le_refl _)) j s h
  constructor
  · exact h1
  · intro q hpa
    rw [hblk]
    by_cases h : q = p
    · simp [h]
    · rw [if_neg h, hmem q h]
      exact r.live q (((alive_iff q).1 hpa).resolve_left h)
  · intro q hpa
    rw [alive_iff, not_or] at hpa
    rw [hblk, if_neg hpa.1]
    exact r.dead q hpa.2
  · intro c hc j s hj
    rw [hctl] at hc
    split at hc
    · cases hc
    · rename_i hcn
      by_cases hjk : j = k
      · subst hjk; rw [upd_same] at hj; cases hj; exact fun e => hcn e.symm
      · rw [upd_ne _ _ hjk] at hj; exact r.nil c hc j s hj
  · intro c t hc
    rw [hctl] at hc
    split at hc
    · rename_i hcn
      cases hc
      refine ⟨by simp, [k], by simp, ?_, rfl⟩
      intro j
      rw [List.mem_singleton]
      constructor
      · rintro rfl; exact ⟨_, upd_same _ _ _, hcn.symm⟩
      · rintro ⟨s, hs, e⟩
        by_contra hjk
        rw [upd_ne _ _ hjk] at hs
        exact keylt j s hs (e.trans hcn)
    · rename_i hcn
      obtain ⟨h0, L, h1, h2, h3⟩ := r.count c t hc
      refine ⟨h0, L, h1, ?_, h3⟩
      intro j
      rw [h2]
      by_cases hjk : j = k
      · subst hjk
        rw [upd_same, hk]
        constructor
        · rintro ⟨s, hs, _⟩; cases hs
        · rintro ⟨s, hs, e⟩; cases hs; exact absurd e.symm hcn
      · rw [upd_ne _ _ hjk]
  · intro j s t hj hc
    rw [hctl] at hc
    by_cases hjk : j = k
    · subst hjk; rw [upd_same] at hj; cases hj; simp at hc; rw [← hc]
    · rw [upd_ne _ _ hjk] at hj
      rw [if_neg (keylt j s hj)] at hc
      exact r.ptr j s t hj hc
  · intro c t hc
    rw [hctl] at hc
    split at hc
    · cases hc; exact hd
    · exact r.del c t hc
  · have key : ∀ c t, m.ctl c = some t → Alive prog K t.ptr := by
      intro c t hc
      obtain ⟨h0, L, _, h2, h3⟩ := r.count c t hc
      cases L with
      | nil => exact absurd h3.symm h0
      | cons j L =>
        obtain ⟨s, hs, ec⟩ := (h2 j).1 (by simp)
        rw [r.ptr j s t hs (by rw [ec]; exact hc)]
        exact alive_key hs
    intro c c' t t' hc hc' hdel hp
    rw [hctl] at hc hc'
    split at hc <;> split at hc'
    · rename_i a b; rw [a, b]
    · cases hc
      exact absurd (by have := key c' t' hc'; rwa [← hp] at this) (hn hdel)
    · cases hc'
      have hdp : ¬ prog t.ptr := (r.del c t hc).1 hdel
      exact absurd (by have := key c t hc; rwa [hp] at this) (hn (hd.2 (by rw [hp] at hdp; exact hdp)))
    · exact r.uniq c c' t t' hc hc' hdel hp
  · intro q hpa
    by_cases h : q = p
    · rw [h]; exact hp
    · rw [hmem q h]
      exact r.has q (((alive_iff q).1 hpa).resolve_left h)
  · exact hf
  · intro c hc
    rw [hctl, if_neg (by omega)]
    exact r.freshCtl c (by omega)

/-- `shared_array (new value_type [n])`. -/
theorem newArray_ok (r : Core prog m next mem K) {k : Key} (hk : K k = .none) (junk : Nat → α) (n : Nat) (hp : ∀ p, prog p → p < next) :
    ∃ m', newArray m junk n = (⟨next, m.nextCtl⟩, m') ∧
    Core prog m' (next + 1) (fun q => if q = next then some ((List.range n).map junk) else mem q) (upd K k (some ⟨next, m.nextCtl⟩)) := by
  have hnp : ¬ prog next := fun h => Nat.lt_irrefl _ (hp _ h)
  refine ⟨_, by simp only [newArray, control, Heap.alloc, r.nxt]; rfl, ?_⟩
  refine r.addKey hk (d := true) (p := next) rfl rfl (fun c => rfl) (fun q => ?_) (fun q hq => by simp [hq]) (by simp) (fun q hq => ?_) (by simp [hnp])
    (fun _ h => Nat.lt_irrefl _ (r.alive_lt h))
  · by_cases h : q = next <;> simp [h]
  · rw [if_neg (by omega)]; exact r.fresh q (by omega)

/-- `shared_array (b, leaker)` for an array of the program. -/
theorem control_ok (r : Core prog m next mem K) {k : Key} (hk : K k = .none) {b : Nat} (hb : prog b) :
    ∃ m', control m b false = (⟨b, m.nextCtl⟩, m') ∧ m'.heap = m.heap ∧ Core prog m' next mem (upd K k (some ⟨b, m.nextCtl⟩)) := by
  refine ⟨_, rfl, rfl, ?_⟩
  refine r.addKey hk (d := false) (p := b) r.nxt rfl (fun c => rfl) (fun q => ?_) (fun q hq => rfl) (r.has b (.inl hb)) r.fresh (by simp [hb]) (by simp)
  by_cases h : q = b
  · rw [if_pos h, h]; exact r.live b (.inl hb)
  · rw [if_neg h]

/-- One more reference. -/
theorem retain_ok (r : Core prog m next mem K) {k j : Key} (hk : K k = .none) {s : Shared} (hj : K j = some s) :
    ∃ m', retain m s = .ok m' ∧ m'.heap = m.heap ∧ Core prog m' next mem (upd K k (some s)) := by
  obtain ⟨t, ht, htp⟩ := r.ctl_of hj
  refine ⟨m.setCtl s.ctl (some { t with count := t.count + 1 }), by simp [retain, ht], rfl, ?_⟩
  have hctl : ∀ c, (m.setCtl s.ctl (some { t with count := t.count + 1 })).ctl c = if c = s.ctl then some { t with count := t.count + 1 } else m.ctl c := fun c => rfl
  have alive_iff : ∀ q, Alive prog (upd K k (some s)) q ↔ Alive prog K q := by
    intro q
    constructor
    · rintro (h | ⟨i, u, h, e⟩)
      · exact .inl h
      · by_cases hi : i = k
        · subst hi; rw [upd_same] at h; cases h; exact .inr ⟨j, s, hj, e⟩
        · rw [upd_ne _ _ hi] at h; exact .inr ⟨i, u, h, e⟩
    · rintro (h | ⟨i, u, h, e⟩)
      · exact .inl h
      · refine .inr ⟨i, u, ?_, e⟩
        rw [upd_ne _ _ (by rintro rfl; rw [hk] at h; cases h)]; exact h
  have old : ∀ c t', (m.setCtl s.ctl (some { t with count := t.count + 1 })).ctl c = some t' →
      ∃ t0, m.ctl c = some t0 ∧ t0.deletes = t'.deletes ∧ t0.ptr = t'.ptr := by
    intro c t' h
    rw [hctl] at h
    split at h
    · rename_i e; cases h; exact ⟨t, by rw [e]; exact ht, rfl, rfl⟩
    · exact ⟨t', h, rfl, rfl⟩
  constructor
  · exact r.nxt
  · intro p hp; exact r.live p ((alive_iff p).1 hp)
  · intro p hp; exact r.dead p (fun h => hp ((alive_iff p).2 h))
  · intro c hc i u hi
    rw [hctl] at hc
    split at hc
    · cases hc
    · rename_i hcs
      by_cases hik : i = k
      · subst hik; rw [upd_same] at hi; cases hi; exact fun e => hcs e.symm
      · rw [upd_ne _ _ hik] at hi; exact r.nil c hc i u hi
  · intro c t' hc
    rw [hctl] at hc
    split at hc
    · rename_i hcs
      cases hc
      obtain ⟨h0, L, h1, h2, h3⟩ := r.count s.ctl t ht
      refine ⟨by simp, k :: L, ?_, ?_, by simp [h3]⟩
      · refine List.nodup_cons.2 ⟨fun h => ?_, h1⟩
        obtain ⟨u, hu, _⟩ := (h2 k).1 h
        rw [hk] at hu; cases hu
      · intro i
        rw [List.mem_cons, h2]
        by_cases hik : i = k
        · subst hik
          constructor
          · intro _; exact ⟨s, upd_same _ _ _, hcs.symm⟩
          · intro _; exact .inl rfl
        · rw [upd_ne _ _ hik, hcs]
          simp [hik]
    · rename_i hcs
      obtain ⟨h0, L, h1, h2, h3⟩ := r.count c t' hc
      refine ⟨h0, L, h1, fun i => ?_, h3⟩
      rw [h2]
      by_cases hik : i = k
      · subst hik
        rw [upd_same, hk]
        constructor
        · rintro ⟨u, hu, _⟩; cases hu
        · rintro ⟨u, hu, e⟩; cases hu; exact absurd e.symm hcs
      · rw [upd_ne _ _ hik]
  · intro i u t' hi hc
    obtain ⟨t0, e0, _, e2⟩ := old _ _ hc
    rw [← e2]
    by_cases hik : i = k
    · subst hik; rw [upd_same] at hi; cases hi; exact r.ptr j _ t0 hj e0
    · rw [upd_ne _ _ hik] at hi; exact r.ptr i u t0 hi e0
  · intro c t' hc
    obtain ⟨t0, e0, e1, e2⟩ := old _ _ hc
    rw [← e1, ← e2]; exact r.del c t0 e0
  · intro c c' t1 t2 hc hc' hd hp
    obtain ⟨t0, e0, e1, e2⟩ := old _ _ hc
    obtain ⟨t0', e0', e1', e2'⟩ := old _ _ hc'
    exact r.uniq c c' t0 t0' e0 e0' (by rw [e1]; exact hd) (by rw [e2, e2']; exact hp)
  · intro p hp; exact r.has p ((alive_iff p).1 hp)
  · exact r.fresh
  · intro c hc
    rw [hctl, if_neg (by rintro rfl; rw [r.freshCtl _ hc] at ht; cases ht)]
    exact r.freshCtl c hc

/-- One reference less. -/
theorem drop_ok (r : Core prog m next mem K) {k : Key} {s : Shared} (hk : K k = some s) :
    ∃ m', drop m s = .ok m' ∧ (∀ q, Alive prog (upd K k .none) q → m'.heap.blk q = m.heap.blk q) ∧ Core prog m' next mem (upd K k .none) := by
  obtain ⟨t, ht, htp⟩ := r.ctl_of hk
  obtain ⟨h0, L, hL1, hL2, hL3⟩ := r.count s.ctl t ht
  have hkL : k ∈ L := (hL2 k).2 ⟨s, hk, rfl⟩
  have alive_of : ∀ q, Alive prog (upd K k .none) q → Alive prog K q := by
    rintro q (h | ⟨i, u, h, e⟩)
    · exact .inl h
    · by_cases hi : i = k
      · subst hi; rw [upd_same] at h; cases h
      · rw [upd_ne _ _ hi] at h; exact .inr ⟨i, u, h, e⟩
  have alive_to : ∀ q, q ≠ s.ptr → Alive prog K q → Alive prog (upd K k .none) q := by
    rintro q hq (h | ⟨i, u, h, e⟩)
    · exact .inl h
    · refine .inr ⟨i, u, ?_, e⟩
      rw [upd_ne]
      · exact h
      · rintro rfl; rw [hk] at h; cases h; exact hq e.symm
  by_cases h1 : t.count = 1
  · -- the last reference
    have honly : ∀ j u, K j = some u → u.ctl = s.ctl → j = k := by
      intro j u hj e
      have hj' : j ∈ L := (hL2 j).2 ⟨u, hj, e⟩
      match L, hL3, hkL, hj' with
      | [a], _, hk', hj' => simp at hk' hj'; rw [hk', hj']
      | a :: b :: L, h, _, _ => simp at h; omega
    have mk : ∀ m' : Mem α, m'.heap.next = m.heap.next → m'.nextCtl = m.nextCtl → (∀ c, m'.ctl c = if c = s.ctl then .none else m.ctl c) →
        (∀ p, Alive prog (upd K k .none) p → m'.heap.blk p = m.heap.blk p) → (∀ p, ¬ Alive prog (upd K k .none) p → m'.heap.blk p = .none) →
        Core prog m' next mem (upd K k .none) := by
      intro m' e1 e2 hctl e4 e5
      have old : ∀ c t', m'.ctl c = some t' → c ≠ s.ctl ∧ m.ctl c = some t' := by
        intro c t' h
        rw [hctl] at h
        split at h
        · cases h
        · exact ⟨by assumption, h⟩
      constructor
      · rw [e1]; exact r.nxt
      · intro p hp; rw [e4 p hp]; exact r.live p (alive_of p hp)
      · exact e5
      · intro c hc i u hi
        by_cases hik : i = k
        · subst hik; rw [upd_same] at hi; cases hi
        · rw [upd_ne _ _ hik] at hi
          rw [hctl] at hc
          split at hc
          · rename_i hcs
            intro e
            exact hik (honly i u hi (e.trans hcs))
          · exact r.nil c hc i u hi
      · intro c t' hc
        obtain ⟨hcs, hc⟩ := old c t' hc
        obtain ⟨g0, L', g1, g2, g3⟩ := r.count c t' hc
        refine ⟨g0, L', g1, fun i => ?_, g3⟩
        rw [g2]
        by_cases hik : i = k
        · subst hik
          rw [upd_same, hk]
          constructor
          · rintro ⟨u, hu, e⟩; cases hu; exact absurd e.symm hcs
          · rintro ⟨u, hu, e⟩; cases hu
        · rw [upd_ne _ _ hik]
      · intro i u t' hi hc
        by_cases hik : i = k
        · subst hik; rw [upd_same] at hi; cases hi
        · rw [upd_ne _ _ hik] at hi; exact r.ptr i u t' hi (old _ _ hc).2
      · intro c t' hc; exact r.del c t' (old _ _ hc).2
      · intro c c' t1 t2 hc hc' hd hp; exact r.uniq c c' t1 t2 (old _ _ hc).2 (old _ _ hc').2 hd hp
      · intro p hp; exact r.has p (alive_of p hp)
      · exact r.fresh
      · intro c hc
        rw [hctl]
        split
        · rfl
        · exact r.freshCtl c (by omega)
    by_cases hd : t.deletes = true
    · have hnp := (r.del _ t ht).1 hd
      have hgone : ¬ Alive prog (upd K k .none) s.ptr := by
        rintro (h | ⟨i, u, h, e⟩)
        · exact hnp (by rw [htp]; exact h)
        · by_cases hi : i = k
          · subst hi; rw [upd_same] at h; cases h
          · rw [upd_ne _ _ hi] at h
            obtain ⟨t', ht', htp'⟩ := r.ctl_of h
            have := r.uniq s.ctl u.ctl t t' ht ht' hd (by rw [htp, htp', e])
            exact hi (honly i u h this.symm)
      have hb : m.heap.blk t.ptr ≠ .none := by
        rw [htp, r.live _ (alive_key hk)]; exact r.has _ (alive_key hk)
      obtain ⟨b, hb⟩ := Option.ne_none_iff_exists'.1 hb
      refine ⟨{ m.setCtl s.ctl .none with heap := { m.heap with blk := fun q => if q = t.ptr then .none else m.heap.blk q } },
        by simp only [drop, ht, if_pos h1, if_pos hd, hb], ?_, ?_⟩
      · intro q hq
        have : q ≠ t.ptr := by rintro rfl; rw [htp] at hq; exact hgone hq
        simp [this]
      · refine mk _ rfl rfl (fun c => rfl) ?_ ?_
        · intro q hq
          have : q ≠ t.ptr := by rintro rfl; rw [htp] at hq; exact hgone hq
          simp [this]
        · intro q hq
          by_cases hqp : q = t.ptr
          · simp [hqp]
          · simp only [hqp, if_false]
            exact r.dead q (fun h => hq (alive_to q (by rw [← htp]; exact hqp) h))
    · have hp : prog t.ptr := by
        by_contra hc
        exact hd ((r.del _ t ht).2 hc)
      refine ⟨m.setCtl s.ctl .none, by simp only [drop, ht, if_pos h1, if_neg hd], fun q _ => rfl, ?_⟩
      refine mk _ rfl rfl (fun c => rfl) (fun q _ => rfl) (fun q hq => ?_)
      refine r.dead q (fun h => hq ?_)
      by_cases hqp : q = s.ptr
      · exact .inl (by rw [hqp, ← htp]; exact hp)
      · exact alive_to q hqp h
  · -- others remain
    have hex : ∃ j u, j ≠ k ∧ K j = some u ∧ u.ctl = s.ctl := by
      have hl : (L.erase k).length ≠ 0 := by rw [List.length_erase_of_mem hkL]; omega
      cases hE : L.erase k with
      | nil => rw [hE] at hl; exact absurd rfl hl
      | cons j L' =>
        have hj : j ∈ L.erase k := by rw [hE]; simp
        rw [hL1.mem_erase_iff] at hj
        obtain ⟨u, hu, e⟩ := (hL2 j).1 hj.2
        exact ⟨j, u, hj.1, hu, e⟩
    obtain ⟨j, u, hjk, hju, hjc⟩ := hex
    have hup : u.ptr = s.ptr := by rw [← r.ptr j u t hju (by rw [hjc]; exact ht), htp]
    have alive_iff : ∀ q, Alive prog (upd K k .none) q ↔ Alive prog K q := by
      intro q
      refine ⟨alive_of q, fun h => ?_⟩
      by_cases hq : q = s.ptr
      · exact .inr ⟨j, u, by rw [upd_ne _ _ hjk]; exact hju, by rw [hq, hup]⟩
      · exact alive_to q hq h
    refine ⟨m.setCtl s.ctl (some { t with count := t.count - 1 }), by simp only [drop, ht, if_neg h1], fun q _ => rfl, ?_⟩
    have hctl : ∀ c, (m.setCtl s.ctl (some { t with count := t.count - 1 })).ctl c = if c = s.ctl then some { t with count := t.count - 1 } else m.ctl c := fun c => rfl
    have old : ∀ c t', (m.setCtl s.ctl (some { t with count := t.count - 1 })).ctl c = some t' →
        ∃ t0, m.ctl c = some t0 ∧ t0.deletes = t'.deletes ∧ t0.ptr = t'.ptr := by
      intro c t' h
      rw [hctl] at h
      split at h
      · rename_i e; cases h; exact ⟨t, by rw [e]; exact ht, rfl, rfl⟩
      · exact ⟨t', h, rfl, rfl⟩
    constructor
    · exact r.nxt
    · intro p hp; exact r.live p ((alive_iff p).1 hp)
    · intro p hp; exact r.dead p (fun h => hp ((alive_iff p).2 h))
    · intro c hc i v hi
      by_cases hik : i = k
      · subst hik; rw [upd_same] at hi; cases hi
      · rw [upd_ne _ _ hik] at hi
        rw [hctl] at hc
        split at hc
        · cases hc
        · exact r.nil c hc i v hi
    · intro c t' hc
      rw [hctl] at hc
      split at hc
      · rename_i hcs
        cases hc
        refine ⟨by simp; omega, L.erase k, hL1.erase _, fun i => ?_, by rw [List.length_erase_of_mem hkL, hL3]⟩
        rw [hL1.mem_erase_iff, hL2, hcs]
        by_cases hik : i = k
        · subst hik; simp
        · rw [upd_ne _ _ hik]; simp [hik]
      · rename_i hcs
        obtain ⟨g0, L', g1, g2, g3⟩ := r.count c t' hc
        refine ⟨g0, L', g1, fun i => ?_, g3⟩
        rw [g2]
        by_cases hik : i = k
        · subst hik
          rw [upd_same, hk]
          constructor
          · rintro ⟨u, hu, e⟩; cases hu; exact absurd e.symm hcs
          · rintro ⟨u, hu, e⟩; cases hu
        · rw [upd_ne _ _ hik]
    · intro i v t' hi hc
      obtain ⟨t0, e0, _, e2⟩ := old _ _ hc
      rw [← e2]
      by_cases hik : i = k
      · subst hik; rw [upd_same] at hi; cases hi
      · rw [upd_ne _ _ hik] at hi; exact r.ptr i v t0 hi e0
    · intro c t' hc
      obtain ⟨t0, e0, e1, e2⟩ := old _ _ hc
      rw [← e1, ← e2]; exact r.del c t0 e0
    · intro c c' t1 t2 hc hc' hd hp
      obtain ⟨t0, e0, e1, e2⟩ := old _ _ hc
      obtain ⟨t0', e0', e1', e2'⟩ := old _ _ hc'
      exact r.uniq c c' t0 t0' e0 e0' (by rw [e1]; exact hd) (by rw [e2, e2']; exact hp)
    · intro p hp; exact r.has p ((alive_iff p).1 hp)
    · exact r.fresh
    · intro c hc
      rw [hctl, if_neg (by rintro rfl; rw [r.freshCtl _ hc] at ht; cases ht)]
      exact r.freshCtl c hc

/-- Writing into an array. -/
theorem write_ok (r : Core prog m next mem K) {p : Nat} {l : List α} (hp : Alive prog K p) {h' : Heap α} (h1 : h'.next = m.heap.next)
    (h2 : ∀ q, h'.blk q = if q = p then some l else m.heap.blk q) :
    Core prog { m with heap := h' } next (fun q => if q = p then some l else mem q) K := by
  constructor
  · show h'.next = next; rw [h1]; exact r.nxt
  · intro q hq
    show h'.blk q = _
    rw [h2]
    split
    · rfl
    · exact r.live q hq
  · intro q hq
    show h'.blk q = _
    rw [h2, if_neg (by rintro rfl; exact hq hp)]
    exact r.dead q hq
  · exact r.nil
  · exact r.count
  · exact r.ptr
  · exact r.del
  · exact r.uniq
  · intro q hq
    split
    · simp
    · exact r.has q hq
  · intro q hq
    rw [if_neg (by rintro rfl; have := r.alive_lt hp; omega)]
    exact r.fresh q hq
  · exact r.freshCtl

/-- Two holders exchange what they hold. -/
theorem swap_ok (r : Core prog m next mem K) {K' : Key → Option Shared} (f : Key → Key) (hf : ∀ k, f (f k) = k) (hK : ∀ k, K' k = K (f k)) :
    Core prog m next mem K' := by
  have alive_iff : ∀ q, Alive prog K' q ↔ Alive prog K q := by
    intro q
    constructor
    · rintro (h | ⟨a, u, h, e⟩)
      · exact .inl h
      · rw [hK] at h; exact .inr ⟨_, u, h, e⟩
    · rintro (h | ⟨a, u, h, e⟩)
      · exact .inl h
      · exact .inr ⟨f a, u, by rw [hK, hf]; exact h, e⟩
  constructor
  · exact r.nxt
  · intro p hp; exact r.live p ((alive_iff p).1 hp)
  · intro p hp; exact r.dead p (fun h => hp ((alive_iff p).2 h))
  · intro c hc k s hk; rw [hK] at hk; exact r.nil c hc _ s hk
  · intro c t hc
    obtain ⟨h0, L, h1, h2, h3⟩ := r.count c t hc
    refine ⟨h0, L.map f, ?_, fun k => ?_, by simp [h3]⟩
    · exact List.Nodup.map (fun a b e => by rw [← hf a, ← hf b, e]) h1
    · rw [hK, List.mem_map, ← h2]
      constructor
      · rintro ⟨a, ha, rfl⟩; rw [hf]; exact ha
      · intro h; exact ⟨f k, h, hf k⟩
  · intro k s t hk hc; rw [hK] at hk; exact r.ptr _ s t hk hc
  · exact r.del
  · exact r.uniq
  · intro p hp; exact r.has p ((alive_iff p).1 hp)
  · exact r.fresh
  · exact r.freshCtl

end Core

/-- The holders in a state: the live adaptors. -/
def keys (s : St α) : Key → Option Shared
  | (false, x) => (s.var x).map SArr.data
  | (true, _) => none

/-- What an adaptor denotes. -/
def ref (a : SArr) : Ref := ⟨a.size, a.own, a.data.ptr⟩

/-- State `s` represents `e`. -/
structure Rep (prog : Nat → Prop) (s : St α) (e : Env α) : Prop where
  core : Core prog s.mem e.next e.mem (keys s)
  var : ∀ x, e.var x = (s.var x).map ref
  size : ∀ x a, s.var x = some a → ∃ l, e.mem a.data.ptr = some l ∧ a.size ≤ l.length

theorem keys_set (m : Mem α) (s : St α) (x : Nat) (v : Option SArr) :
    keys ⟨m, setVar s.var x v⟩ = upd (keys s) (false, x) (v.map SArr.data) := by
  funext ⟨b, y⟩
  cases b with
  | false =>
    by_cases h : y = x
    · subst h; simp [keys, upd, setVar]
    · simp [keys, upd, setVar, h]
  | true => simp [keys, upd]

theorem keys_mem (m : Mem α) (s : St α) : keys ⟨m, s.var⟩ = keys s := rfl

namespace Rep
variable {prog : Nat → Prop} {s : St α} {e : Env α}

theorem get (r : Rep prog s e) {x : Nat} (h : e.var x ≠ none) :
    ∃ a l, s.var x = some a ∧ e.var x = some (ref a) ∧ e.mem a.data.ptr = some l ∧ a.size ≤ l.length ∧ shown e x = l.take a.size ∧
      s.mem.heap.blk a.data.ptr = some l := by
  rw [r.var] at h
  cases hx : s.var x with
  | none => rw [hx] at h; exact absurd rfl h
  | some a =>
    obtain ⟨l, h1, h2⟩ := r.size x a hx
    have hv : e.var x = some (ref a) := by rw [r.var, hx]; rfl
    refine ⟨a, l, rfl, hv, h1, h2, ?_, ?_⟩
    · simp [shown, hv, ref, h1]
    · rw [r.core.live _ (Core.alive_key (k := (false, x)) (by simp [keys, hx])), h1]

theorem key {x : Nat} {a : SArr} (h : s.var x = some a) : keys s (false, x) = some a.data := by simp [keys, h]

theorem dead (r : Rep prog s e) {x : Nat} (h : e.var x = none) : s.var x = none := by
  rw [r.var] at h
  cases hx : s.var x with
  | none => rfl
  | some a => rw [hx] at h; cases h

theorem prog_lt (r : Rep prog s e) (p : Nat) (h : prog p) : p < e.next := r.core.alive_lt (.inl h)

/-- Variable `x` changed, and the memory with it. -/
theorem set (r : Rep prog s e) (x : Nat) {m' : Mem α} {v : Option SArr} {e' : Env α}
    (hc : Core prog m' e'.next e'.mem (upd (keys s) (false, x) (v.map SArr.data)))
    (hv : e'.var = fun y => if y = x then v.map ref else e.var y)
    (hl : ∀ p l, e.mem p = some l → ∃ l', e'.mem p = some l' ∧ l.length ≤ l'.length)
    (hn : ∀ a, v = some a → ∃ l, e'.mem a.data.ptr = some l ∧ a.size ≤ l.length) :
    Rep prog ⟨m', setVar s.var x v⟩ e' := by
  refine ⟨by rw [keys_set]; exact hc, fun y => ?_, fun y a hy => ?_⟩
  · rw [hv]
    by_cases h : y = x
    · simp [h, setVar]
    · simp [h, setVar, r.var]
  · by_cases h : y = x
    · exact hn a (by simpa [h, setVar] using hy)
    · have hy : s.var y = some a := by simpa [h, setVar] using hy
      obtain ⟨l, h1, h2⟩ := r.size y a hy
      obtain ⟨l', h3, h4⟩ := hl _ _ h1
      exact ⟨l', h3, by omega⟩

/-- Only the contents of one array changed. -/
theorem write (r : Rep prog s e) {b : Nat} {l l' : List α} (hb : Alive prog (keys s) b) (hm : e.mem b = some l) (hl : l.length = l'.length) {h' : Heap α}
    (h1 : h'.next = s.mem.heap.next) (h2 : ∀ q, h'.blk q = if q = b then some l' else s.mem.heap.blk q) :
    Rep prog ⟨{ s.mem with heap := h' }, s.var⟩ (e.put b l') := by
  refine ⟨r.core.write_ok hb h1 h2, r.var, fun x a hx => ?_⟩
  obtain ⟨k, h3, h4⟩ := r.size x a hx
  by_cases h : a.data.ptr = b
  · refine ⟨l', by simp [Env.put, h], ?_⟩
    rw [h, hm] at h3; cases h3; omega
  · exact ⟨k, by simp [Env.put, h]; exact h3, h4⟩

end Rep

/-- `std::copy` and `std::fill` into array `d`. -/
theorem preserveTo_ok {prog : Nat → Prop} {m : Mem α} {next : Nat} {mem : Nat → Option (List α)} {K : Key → Option Shared} (r : Core prog m next mem K)
    {a : SArr} {l ld : List α} {d n : Nat} (ha : Alive prog K a.data.ptr) (hl : mem a.data.ptr = some l) (hs : a.size ≤ l.length)
    (hd : Alive prog K d) (hld : mem d = some ld) (hn : n ≤ ld.length) (init : α) :
    ∃ m', preserveTo m a d n init true = .ok m' ∧
      Core prog m' next (fun q => if q = d then some (fit (l.take a.size) n init ++ ld.drop n) else mem q) K := by
  have hb : m.heap.blk a.data.ptr = some l := by rw [r.live _ ha, hl]
  have hbd : m.heap.blk d = some ld := by rw [r.live _ hd, hld]
  have hcell : ∀ k : List α, k.take (min n a.size) = l.take (min n a.size) → k.drop n = ld.drop n →
      k.take (min n a.size) ++ List.replicate (n - min n a.size) init ++ k.drop n = fit (l.take a.size) n init ++ ld.drop n := by
    intro k h1 h2
    rw [h1, h2, fit, List.take_take, List.length_take, Nat.min_eq_left hs, show n - min n a.size = n - a.size by omega]
  simp only [preserveTo, if_true]
  by_cases he : a.data.ptr = d
  · subst he
    rw [hb] at hbd; cases hbd
    rw [Adaptor.copyN_self m.heap _ _ l hb (by omega), bind_ok, fillFrom_spec m.heap _ _ _ init l hb (by omega) hn, bind_ok]
    refine ⟨_, rfl, ?_⟩
    refine r.write_ok ha rfl (fun q => ?_)
    rw [hcell l rfl rfl]
  · rw [copyN_spec m.heap _ _ _ l ld hb hbd he (by omega) (by omega), bind_ok,
      fillFrom_spec _ _ _ _ init (l.take (min n a.size) ++ ld.drop (min n a.size)) (by simp) (by omega) (by simp; omega), bind_ok]
    refine ⟨_, rfl, ?_⟩
    refine r.write_ok hd rfl (fun q => ?_)
    rw [hcell]
    · by_cases h : q = d <;> simp [h]
    · rw [List.take_left' (by simp; omega)]
    · rw [List.drop_append, List.drop_eq_nil_of_le (by simp; omega), List.nil_append, List.drop_drop, List.length_take]
      congr 1; omega

/-- Exchanging two holders. -/
def exch (i j k : Key) : Key := if k = i then j else if k = j then i else k

theorem exch_exch (i j k : Key) : exch i j (exch i j k) = k := by
  unfold exch; split <;> split <;> (try split) <;> simp_all

/-- `resize_internal (n, init, preserve)` with another size. -/
theorem resizeInternal_ok {prog : Nat → Prop} {s : St α} {e : Env α} (r : Rep prog s e) {x : Nat} {a : SArr} (ha : s.var x = some a) {l : List α}
    (hl : e.mem a.data.ptr = some l) (hs : a.size ≤ l.length) (junk : Nat → α) {n : Nat} (hn : n ≠ a.size) (init : α) (preserve : Bool) :
    ∃ a' m', resizeInternal s.mem junk a n init preserve = .ok (a', m') ∧ a'.size = n ∧ a'.data.ptr = e.next ∧
      Rep prog ⟨m', setVar s.var x (some a')⟩ (e.new x (if preserve = true then fit (l.take a.size) n init else (List.range n).map junk)) := by
  have hlt : a.data.ptr < e.next := r.core.alive_lt (Core.alive_key (Rep.key ha))
  obtain ⟨m1, e1, c1⟩ := r.core.newArray_ok (k := (true, 0)) rfl junk n r.prog_lt
  simp only [resizeInternal, ne_eq, hn, not_false_eq_true, if_true, e1]
  -- the new contents
  have step2 : ∃ m2, preserveTo m1 a e.next n init preserve = .ok m2 ∧
      Core prog m2 (e.next + 1) (fun q => if q = e.next then some (if preserve = true then fit (l.take a.size) n init else (List.range n).map junk) else e.mem q)
        (upd (keys s) (true, 0) (some ⟨e.next, s.mem.nextCtl⟩)) := by
    cases preserve with
    | false => exact ⟨m1, rfl, c1⟩
    | true =>
      obtain ⟨m2, e2, c2⟩ := preserveTo_ok c1 (a := a) (l := l) (ld := (List.range n).map junk) (d := e.next) (n := n)
        (Core.alive_key (k := (false, x)) (by rw [upd_ne _ _ (by simp)]; exact Rep.key ha)) (by rw [if_neg (by omega)]; exact hl) hs
        (Core.alive_key (s := ⟨e.next, s.mem.nextCtl⟩) (k := (true, 0)) (upd_same _ _ _)) (by simp) (by simp) init
      refine ⟨m2, e2, ?_⟩
      have hf : (fun q => if q = e.next then some (fit (l.take a.size) n init ++ ((List.range n).map junk).drop n) else
          if q = e.next then some ((List.range n).map junk) else e.mem q) =
          fun q => if q = e.next then some (if true = true then fit (l.take a.size) n init else (List.range n).map junk) else e.mem q := by
        funext q
        by_cases h : q = e.next
        · simp only [h, if_true]; rw [List.drop_eq_nil_of_le (by simp), List.append_nil]
        · simp [h]
      rw [← hf]; exact c2
  obtain ⟨m2, e2, c2⟩ := step2
  obtain ⟨m3, e3, _, c3⟩ := c2.retain_ok (k := (true, 1)) (j := (true, 0)) (by rw [upd_ne _ _ (by simp)]; rfl) (upd_same _ _ _)
  obtain ⟨m4, e4, _, c4⟩ := c3.drop_ok (k := (false, x)) (s := a.data) (by rw [upd_ne _ _ (by simp), upd_ne _ _ (by simp)]; exact Rep.key ha)
  obtain ⟨m5, e5, _, c5⟩ := c4.drop_ok (k := (true, 0)) (s := ⟨e.next, s.mem.nextCtl⟩) (by
    rw [upd_ne _ _ (by simp), upd_ne _ _ (by simp), upd_same])
  refine ⟨⟨n, true, ⟨e.next, s.mem.nextCtl⟩⟩, m5, by simp only [e2, bind_ok, assignShared, e3, e4, e5], rfl, rfl, ?_⟩
  have hlen : (if preserve = true then fit (l.take a.size) n init else (List.range n).map junk).length = n := by
    split
    · simp [fit]; omega
    · simp
  refine r.set x (e' := e.new x _) ?_ ?_ ?_ ?_
  · have := c5.swap_ok (exch (true, 1) (false, x)) (exch_exch _ _) (K' := upd (keys s) (false, x) (some ⟨e.next, s.mem.nextCtl⟩)) (by
      rintro ⟨b, y⟩
      cases b with
      | false =>
        by_cases h : y = x
        · subst h; simp [exch, upd]
        · simp [exch, upd, h]
      | true =>
        by_cases h : y = 1
        · subst h; simp [exch, upd, keys]
        · by_cases h0 : y = 0
          · subst h0; simp [exch, upd, keys]
          · simp [exch, upd, keys, h, h0])
    exact this
  · funext y
    simp only [Env.new, Env.set, Env.put, hlen, Option.map_some, ref]
  · intro p k hp
    have : p ≠ e.next := by rintro rfl; rw [r.core.fresh _ (Nat.le_refl _)] at hp; cases hp
    exact ⟨k, by simp [Env.new, Env.set, Env.put, this]; exact hp, Nat.le_refl _⟩
  · intro a' ha'
    cases ha'
    exact ⟨_, by simp [Env.new, Env.set, Env.put]; rfl, by rw [hlen]; exact Nat.le_refl n⟩

theorem live_ok {s : St α} {x : Nat} {a : SArr} (h : s.var x = some a) : live s x = .ok a := by simp [live, h]

theorem setVar_self {s : St α} {x : Nat} {a : SArr} (h : s.var x = some a) : setVar s.var x (some a) = s.var := by
  funext y
  by_cases hy : y = x
  · simp [setVar, hy, h]
  · simp [setVar, hy]

theorem set_self {e : Env α} {x : Nat} {v : Option Ref} (h : e.var x = v) : e.set x v = e := by
  cases e with
  | mk next mem var =>
    simp only [Env.set, Env.mk.injEq, true_and]
    funext y
    by_cases hy : y = x
    · simp only [hy, if_true]; exact h.symm
    · simp [hy]

theorem keys_self (K : Key → Option Shared) (k : Key) (v : Option Shared) (h : K k = v) : upd K k v = K := by
  funext j
  by_cases hj : j = k
  · rw [hj, upd_same, h]
  · rw [upd_ne _ _ hj]

theorem upd_upd (K : Key → Option Shared) (k : Key) (u v : Option Shared) : upd (upd K k u) k v = upd K k v := by
  funext j
  by_cases hj : j = k
  · rw [hj, upd_same, upd_same]
  · rw [upd_ne _ _ hj, upd_ne _ _ hj, upd_ne _ _ hj]

/-- A new array for a dead name. -/
theorem new_sound {prog : Nat → Prop} {s : St α} {e : Env α} (r : Rep prog s e) {x : Nat} (hx : e.var x = none) {m' : Mem α} {n c : Nat} {l : List α} (hl : l.length = n)
    (hc : Core prog m' (e.next + 1) (fun q => if q = e.next then some l else e.mem q) (upd (keys s) (false, x) (some ⟨e.next, c⟩))) :
    Rep prog ⟨m', setVar s.var x (some ⟨n, true, ⟨e.next, c⟩⟩)⟩ (e.new x l) := by
  refine r.set x (e' := e.new x l) hc ?_ ?_ ?_
  · funext y
    simp only [Env.new, Env.set, Env.put, hl, Option.map_some, ref]
  · intro p k hp
    have : p ≠ e.next := by rintro rfl; rw [r.core.fresh _ (Nat.le_refl _)] at hp; cases hp
    exact ⟨k, by simp [Env.new, Env.set, Env.put, this]; exact hp, Nat.le_refl _⟩
  · intro a' ha'
    cases ha'
    exact ⟨l, by simp [Env.new, Env.set, Env.put], by rw [hl]; exact Nat.le_refl n⟩

/-- `x.swap (y)`. -/
theorem swap_sound {prog : Nat → Prop} {s : St α} {e : Env α} (r : Rep prog s e) {x y : Nat} {a c : SArr} (ha : s.var x = some a) (hc : s.var y = some c) :
    ∃ s', swapVars s x y a c = .ok s' ∧ Rep prog s' (ShallowSpec.swap e x y) := by
  have hex : e.var x = some (ref a) := by rw [r.var, ha]; rfl
  have hey : e.var y = some (ref c) := by rw [r.var, hc]; rfl
  by_cases hxy : x = y
  · subst hxy
    refine ⟨s, by simp [swapVars], ?_⟩
    rw [ShallowSpec.swap, set_self (rfl : e.var x = e.var x), set_self (rfl : e.var x = e.var x)]
    exact r
  · refine ⟨_, by simp [swapVars, hxy]; rfl, ?_⟩
    refine ⟨?_, fun z => ?_, fun z b hz => ?_⟩
    · refine r.core.swap_ok (exch (false, x) (false, y)) (exch_exch _ _) ?_
      rintro ⟨b, z⟩
      cases b with
      | false =>
        by_cases h1 : z = x
        · subst h1; simp [exch, keys, setVar, hxy, hc]
        · by_cases h2 : z = y
          · subst h2; simp [exch, keys, setVar, h1, ha]
          · simp [exch, keys, setVar, h1, h2]
      | true => simp [exch, keys]
    · simp only [ShallowSpec.swap, Env.set, hex, hey, setVar]
      by_cases h2 : z = y
      · simp [h2]
      · by_cases h1 : z = x
        · simp [h1, hxy]
        · simp [h1, h2, r.var]
    · simp only [setVar] at hz
      by_cases h2 : z = y
      · rw [if_pos h2] at hz; cases hz; exact r.size x _ ha
      · rw [if_neg h2] at hz
        by_cases h1 : z = x
        · rw [if_pos h1] at hz; cases hz; exact r.size y _ hc
        · rw [if_neg h1] at hz; exact r.size z b hz

/-- `x = y`. -/
theorem assign_sound {prog : Nat → Prop} {s : St α} {e : Env α} (r : Rep prog s e) (zero : α) (junk : Nat → α) {x y : Nat} (hx : e.var x ≠ none) (hy : e.var y ≠ none)
    {a c : SArr} (ha : s.var x = some a) (hc : s.var y = some c) :
    ∃ s', assignVars zero junk s x y a c = .ok s' ∧ Rep prog s' (ShallowSpec.assign e x y) := by
  obtain ⟨a', l, ea, hex, hl, hs, hsh, hb⟩ := r.get hx
  rw [ha] at ea; cases ea
  obtain ⟨c', k, ec, hey, hk, hks, hksh, hkb⟩ := r.get hy
  rw [hc] at ec; cases ec
  have hsy : (shown e y).length = c.size := by rw [hksh, List.length_take]; omega
  by_cases hxy : x = y
  · exact ⟨s, by simp [assignVars, hxy], by simp only [ShallowSpec.assign, hxy, if_true]; exact r⟩
  · simp only [assignVars, if_neg hxy, Shallow.assign]
    rw [ShallowSpec.assign, if_neg hxy, hex]
    dsimp only [ref]
    rw [hsy]
    by_cases hz : a.size = c.size
    · rw [if_pos hz]
      simp only [resizeInternal, hz, ne_eq, not_true_eq_false, if_false, bind_ok]
      have hgoal : e.over a.data.ptr (shown e y) = e.put a.data.ptr (k.take c.size ++ l.drop c.size) := by
        rw [Env.over, hsy, hl, hksh]; rfl
      rw [hgoal]
      by_cases hp : c.data.ptr = a.data.ptr
      · have hkl : l = k := by rw [hp, hl] at hk; exact Option.some.inj hk
        subst hkl
        rw [hp, Adaptor.copyN_self s.mem.heap _ _ l hb (by omega)]
        simp only [bind_ok, setVar_self ha]
        refine ⟨_, rfl, ?_⟩
        refine r.write (l := l) (Core.alive_key (Rep.key ha)) hl ?_ rfl (fun q => ?_)
        · simp
        · rw [List.take_append_drop]
          by_cases hq : q = a.data.ptr
          · rw [hq, if_pos rfl, hb]
          · rw [if_neg hq]
      · rw [copyN_spec s.mem.heap _ _ _ k l hkb hb hp (by omega) (by omega)]
        simp only [bind_ok, setVar_self ha]
        refine ⟨_, rfl, ?_⟩
        refine r.write (l := l) (Core.alive_key (Rep.key ha)) hl ?_ rfl (fun q => rfl)
        simp; omega
    · rw [if_neg hz]
      obtain ⟨b, m', e1, e2, e3, r'⟩ := resizeInternal_ok r ha hl hs junk (n := c.size) (fun h => hz h.symm) zero false
      simp only [e1, bind_ok]
      have hlt : c.data.ptr < e.next := r.core.alive_lt (Core.alive_key (Rep.key hc))
      have hcv : setVar s.var x (some b) y = some c := by simp [setVar, Ne.symm hxy, hc]
      have hkb' : m'.heap.blk c.data.ptr = some k := by
        have := r'.core.live _ (Core.alive_key (Rep.key hcv))
        rw [this]; simp [Env.new, Env.set, Env.put, Nat.ne_of_lt hlt]; exact hk
      have hnb : m'.heap.blk b.data.ptr = some ((List.range c.size).map junk) := by
        have := r'.core.live _ (Core.alive_key (Rep.key (s := ⟨m', setVar s.var x (some b)⟩) (x := x) (a := b) (by simp [setVar])))
        rw [this, e3]; simp [Env.new, Env.set, Env.put]
      rw [copyN_spec m'.heap _ _ _ k _ hkb' hnb (by omega) (by omega) (by simp)]
      simp only [bind_ok]
      refine ⟨_, rfl, ?_⟩
      have r'' := r'.write (b := b.data.ptr) (l := (List.range c.size).map junk) (l' := k.take c.size ++ ((List.range c.size).map junk).drop c.size)
        (h' := ⟨m'.heap.next, fun q => if q = b.data.ptr then some (k.take c.size ++ ((List.range c.size).map junk).drop c.size) else m'.heap.blk q⟩)
        (Core.alive_key (Rep.key (x := x) (by simp [setVar]))) (by rw [e3]; simp [Env.new, Env.set, Env.put]) (by simp; omega) rfl (fun q => rfl)
      have hE : (e.new x ((List.range c.size).map junk)).put b.data.ptr (k.take c.size ++ ((List.range c.size).map junk).drop c.size) = e.new x (shown e y) := by
        rw [hksh, e3]
        simp only [Env.new, Env.set, Env.put]
        congr 1
        · funext q
          by_cases hq : q = e.next
          · simp [hq]
          · simp [hq]
        · funext z
          simp; 
          rw [Nat.min_eq_left hks]
      have h9 : e.new x (if false = true then fit (l.take a.size) c.size zero else (List.range c.size).map junk) = e.new x ((List.range c.size).map junk) := rfl
      rw [h9, hE] at r''
      exact r''

theorem step_sound (dbg : Bool) {prog : Nat → Prop} (zero : α) (junk : Nat → α) {s : St α} {e : Env α} (r : Rep prog s e) (op : Op α) (hl : legal prog e op) :
    ∃ s', step dbg zero junk s op = .ok s' ∧ Rep prog s' (ShallowSpec.step junk e op) := by
  cases op with
  | ctor x n =>
    have hx : e.var x = none := hl
    obtain ⟨m1, e1, c1⟩ := r.core.newArray_ok (k := (false, x)) (by simp [keys, r.dead hx]) junk n r.prog_lt
    refine ⟨_, by simp only [step, ctor, e1, bind_ok]; rfl, ?_⟩
    exact new_sound r hx (by simp) c1
  | ctorInit x n v =>
    have hx : e.var x = none := hl
    obtain ⟨m1, e1, c1⟩ := r.core.newArray_ok (k := (false, x)) (by simp [keys, r.dead hx]) junk n r.prog_lt
    have hal : Alive prog (upd (keys s) (false, x) (some ⟨e.next, s.mem.nextCtl⟩)) e.next := Core.alive_key (s := ⟨e.next, s.mem.nextCtl⟩) (upd_same _ _ _)
    have hb : m1.heap.blk e.next = some ((List.range n).map junk) := by rw [c1.live _ hal]; simp
    have hf := fillFrom_spec m1.heap e.next 0 n v _ hb (by omega) (by simp)
    refine ⟨_, by simp only [step, ctorInit, e1, hf, bind_ok]; rfl, ?_⟩
    refine new_sound r hx (l := List.replicate n v) (by simp) ?_
    have c2 := c1.write_ok (l := List.replicate n v) hal (h' := ⟨m1.heap.next, fun q => if q = e.next then some (((List.range n).map junk).take 0 ++ List.replicate (n - 0) v ++
      ((List.range n).map junk).drop n) else m1.heap.blk q⟩) rfl (fun q => by
        by_cases h : q = e.next
        · simp [h]
        · simp [h])
    have hf : (fun q => if q = e.next then some (List.replicate n v) else if q = e.next then some ((List.range n).map junk) else e.mem q) =
        fun q => if q = e.next then some (List.replicate n v) else e.mem q := by
      funext q; by_cases h : q = e.next <;> simp [h]
    rw [hf] at c2
    exact c2
  | adopt x n b =>
    obtain ⟨hx, hb, l, hl1, hl2⟩ := hl
    obtain ⟨m1, e1, _, c1⟩ := r.core.control_ok (k := (false, x)) (by simp [keys, r.dead hx]) hb
    refine ⟨_, by simp only [step, adopt, e1, bind_ok]; rfl, ?_⟩
    refine r.set x (e' := e.set x (some ⟨n, false, b⟩)) c1 rfl (fun p l h => ⟨l, h, Nat.le_refl _⟩) ?_
    intro a ha; cases ha; exact ⟨l, hl1, hl2⟩
  | copyCtor x y =>
    obtain ⟨hx, hy⟩ := hl
    obtain ⟨c, l, hc, hey, hk, hks, hsh, hb⟩ := r.get hy
    obtain ⟨m1, e1, _, c1⟩ := r.core.retain_ok (k := (false, x)) (by simp [keys, r.dead hx]) (Rep.key hc)
    refine ⟨_, by simp only [step, live_ok hc, copyCtor, e1, bind_ok]; rfl, ?_⟩
    refine r.set x (e' := e.set x (e.var y)) c1 (by rw [hey]; rfl) (fun p l h => ⟨l, h, Nat.le_refl _⟩) ?_
    intro a ha; cases ha; exact ⟨l, hk, hks⟩
  | dtor x =>
    obtain ⟨a, l, ha, hex, hk, hks, hsh, hb⟩ := r.get hl
    obtain ⟨m1, e1, _, c1⟩ := r.core.drop_ok (Rep.key ha)
    refine ⟨_, by simp only [step, live_ok ha, e1, bind_ok]; rfl, ?_⟩
    refine r.set x (e' := e.set x none) c1 rfl (fun p l h => ⟨l, h, Nat.le_refl _⟩) ?_
    intro a ha; cases ha
  | resize x n =>
    obtain ⟨a, l, ha, hex, hk, hks, hsh, hb⟩ := r.get hl
    have hlen : (shown e x).length = a.size := by rw [hsh, List.length_take]; omega
    simp only [step, live_ok ha, bind_ok, ShallowSpec.step, hlen]
    by_cases hn : a.size = n
    · rw [if_pos hn]
      refine ⟨_, by simp only [resizeInternal, hn, ne_eq, not_true_eq_false, if_false, bind_ok]; rfl, ?_⟩
      rw [setVar_self ha]; exact r
    · rw [if_neg hn]
      obtain ⟨b, m', e1, e2, e3, r'⟩ := resizeInternal_ok r ha hk hks junk (fun h => hn h.symm) zero false
      exact ⟨_, by simp only [e1, bind_ok], r'⟩
  | resizeInit x n v =>
    obtain ⟨a, l, ha, hex, hk, hks, hsh, hb⟩ := r.get hl
    have hlen : (shown e x).length = a.size := by rw [hsh, List.length_take]; omega
    simp only [step, live_ok ha, bind_ok, ShallowSpec.step, hlen]
    by_cases hn : a.size = n
    · rw [if_pos hn]
      refine ⟨_, by simp only [resizeInternal, hn, ne_eq, not_true_eq_false, if_false, bind_ok]; rfl, ?_⟩
      rw [setVar_self ha]; exact r
    · rw [if_neg hn]
      obtain ⟨b, m', e1, e2, e3, r'⟩ := resizeInternal_ok r ha hk hks junk (fun h => hn h.symm) v true
      exact ⟨_, by simp only [e1, bind_ok]; rfl, by rw [hsh]; exact r'⟩
  | attach x n b =>
    obtain ⟨hx, hb, lb, hl1, hl2⟩ := hl
    obtain ⟨a, l, ha, hex, hk, hks, hsh, hbk⟩ := r.get hx
    obtain ⟨m1, e1, _, c1⟩ := r.core.control_ok (k := (true, 0)) rfl hb
    obtain ⟨m2, e2, _, c2⟩ := c1.drop_ok (k := (false, x)) (s := a.data) (by rw [upd_ne _ _ (by simp)]; exact Rep.key ha)
    refine ⟨_, by simp only [step, live_ok ha, bind_ok, resizeAt, preserveTo, Bool.false_eq_true, if_false, e1, e2]; rfl, ?_⟩
    refine r.set x (e' := e.set x (some ⟨n, false, b⟩)) ?_ rfl (fun p l h => ⟨l, h, Nat.le_refl _⟩) ?_
    · refine c2.swap_ok (exch (true, 0) (false, x)) (exch_exch _ _) ?_
      rintro ⟨t, y⟩
      cases t with
      | false =>
        by_cases h : y = x
        · subst h; simp [exch, upd]
        · simp [exch, upd, h]
      | true =>
        by_cases h0 : y = 0
        · subst h0; simp [exch, upd, keys]
        · simp [exch, upd, keys, h0]
    · intro a ha; cases ha; exact ⟨lb, hl1, hl2⟩
  | attachInit x n b v =>
    obtain ⟨hx, hb, lb, hl1, hl2⟩ := hl
    obtain ⟨a, l, ha, hex, hk, hks, hsh, hbk⟩ := r.get hx
    obtain ⟨m0, e0, c0⟩ := preserveTo_ok r.core (Core.alive_key (Rep.key ha)) hk hks (.inl hb) hl1 hl2 v
    obtain ⟨m1, e1, _, c1⟩ := c0.control_ok (k := (true, 0)) rfl hb
    obtain ⟨m2, e2, _, c2⟩ := c1.drop_ok (k := (false, x)) (s := a.data) (by rw [upd_ne _ _ (by simp)]; exact Rep.key ha)
    refine ⟨_, by simp only [step, live_ok ha, bind_ok, resizeAt, e0, e1, e2]; rfl, ?_⟩
    have hfit : (fit (shown e x) n v).length = n := by simp [fit]; omega
    have hover : e.over b (fit (shown e x) n v) = e.put b (fit (l.take a.size) n v ++ lb.drop n) := by
      rw [Env.over, hfit, hl1, hsh]; rfl
    simp only [ShallowSpec.step]
    rw [hover]
    refine r.set x (e' := (e.put b (fit (l.take a.size) n v ++ lb.drop n)).set x (some ⟨n, false, b⟩)) ?_ rfl ?_ ?_
    · refine c2.swap_ok (exch (true, 0) (false, x)) (exch_exch _ _) ?_
      rintro ⟨t, y⟩
      cases t with
      | false =>
        by_cases h : y = x
        · subst h; simp [exch, upd]
        · simp [exch, upd, h]
      | true =>
        by_cases h0 : y = 0
        · subst h0; simp [exch, upd, keys]
        · simp [exch, upd, keys, h0]
    · intro p k hp
      by_cases h : p = b
      · subst h
        rw [hl1] at hp; cases hp
        refine ⟨_, by simp [Env.put, Env.set]; rfl, ?_⟩
        rw [List.length_append, ← hsh, hfit, List.length_drop]; omega
      · exact ⟨k, by simp [Env.put, Env.set, h]; exact hp, Nat.le_refl _⟩
    · intro a' ha'; cases ha'
      refine ⟨_, by simp [Env.put, Env.set]; rfl, ?_⟩
      rw [List.length_append, ← hsh, hfit]; exact Nat.le_add_right _ _
  | assign x y =>
    obtain ⟨hx, hy⟩ := hl
    obtain ⟨a, _, ha, _⟩ := r.get hx
    obtain ⟨c, _, hc, _⟩ := r.get hy
    simp only [step, live_ok ha, live_ok hc, bind_ok]
    exact assign_sound r zero junk hx hy ha hc
  | assignTemporary x y =>
    obtain ⟨hx, hy⟩ := hl
    obtain ⟨a, _, ha, hea, _⟩ := r.get hx
    obtain ⟨c, _, hc, hec, _⟩ := r.get hy
    simp only [step, live_ok ha, live_ok hc, bind_ok, ShallowSpec.step, hea, hec, ref]
    by_cases h : (a.own && c.own) = true
    · rw [if_pos h, if_pos h]; exact swap_sound r ha hc
    · rw [if_neg h, if_neg h]; exact assign_sound r zero junk hx hy ha hc
  | swap x y =>
    obtain ⟨hx, hy⟩ := hl
    obtain ⟨a, _, ha, _⟩ := r.get hx
    obtain ⟨c, _, hc, _⟩ := r.get hy
    simp only [step, live_ok ha, live_ok hc, bind_ok]
    exact swap_sound r ha hc
  | store x i v =>
    obtain ⟨hx, hi⟩ := hl
    obtain ⟨a, l, ha, hea, hk, hks, hsh, hb⟩ := r.get hx
    have hia : i < a.size := by rw [hsh, List.length_take] at hi; omega
    have hil : i < l.length := by omega
    refine ⟨_, by simp only [step, live_ok ha, bind_ok, store, check_true hia, Heap.write, hb, wr_ok hil]; rfl, ?_⟩
    simp only [ShallowSpec.step, hea, ref, hk, Option.getD_some]
    exact r.write (l := l) (Core.alive_key (Rep.key ha)) hk (by simp) rfl (fun q => rfl)
  | poke b i v =>
    obtain ⟨hb, l, hl1, hl2⟩ := hl
    have hbk : s.mem.heap.blk b = some l := by rw [r.core.live b (.inl hb), hl1]
    refine ⟨_, by simp only [step, Heap.write, hbk, wr_ok (show i < l.length by omega), bind_ok]; rfl, ?_⟩
    simp only [ShallowSpec.step, hl1, Option.getD_some]
    exact r.write (l := l) (.inl hb) hl1 (by simp) rfl (fun q => rfl)

theorem run_sound (dbg : Bool) {prog : Nat → Prop} (zero : α) : ∀ (ops : List (Op α × (Nat → α))) {s : St α} {e : Env α}, Rep prog s e → legalRun prog e ops →
    ∃ s', run dbg zero s ops = .ok s' ∧ Rep prog s' (ShallowSpec.run e ops)
  | [], s, _, r, _ => ⟨s, rfl, r⟩
  | (op, junk) :: ops, s, e, r, h => by
    obtain ⟨s1, e1, r1⟩ := step_sound dbg zero junk r op h.1
    obtain ⟨s2, e2, r2⟩ := run_sound dbg zero ops r1 h.2
    exact ⟨s2, by simp only [run, e1, bind_ok, e2], r2⟩

theorem Rep.observes {prog : Nat → Prop} {s : St α} {e : Env α} (r : Rep prog s e) (dbg : Bool) : Observes dbg prog s e ∧ Exact prog s e := by
  refine ⟨⟨fun x => ⟨r.dead, fun hx => ?_⟩, fun b hb => r.core.live b (.inl hb)⟩, fun p => ⟨fun h => ?_, ?_⟩, fun c => ⟨fun h => ?_, ?_⟩⟩
  · obtain ⟨a, l, ha, hea, hk, hks, hsh, hb⟩ := r.get hx
    refine ⟨a, ha, by rw [hsh, List.length_take]; omega, fun i v hv => ?_⟩
    rw [hsh] at hv
    have hi : i < a.size := by
      by_contra hc
      rw [List.getElem?_eq_none (by rw [List.length_take]; omega)] at hv; cases hv
    rw [List.getElem?_take_of_lt hi] at hv
    simp only [Shallow.index, check_true hi, bind_ok, Heap.read, hb, rd_eq_ok.2 hv]
  · by_contra hc
    refine h (r.core.dead p (fun ha => hc ?_))
    rcases ha with hp | ⟨⟨t, x⟩, u, hu, e'⟩
    · exact .inl hp
    · cases t with
      | true => cases hu
      | false =>
        simp only [keys, Option.map_eq_some_iff] at hu
        obtain ⟨a, ha, rfl⟩ := hu
        exact .inr ⟨x, ref a, by rw [r.var, ha]; rfl, e'⟩
  · intro h
    have ha : Alive prog (keys s) p := by
      rcases h with hp | ⟨x, q, hq, e'⟩
      · exact .inl hp
      · rw [r.var, Option.map_eq_some_iff] at hq
        obtain ⟨a, ha, rfl⟩ := hq
        exact .inr ⟨(false, x), a.data, Rep.key ha, e'⟩
    rw [r.core.live p ha]; exact r.core.has p ha
  · obtain ⟨t, ht⟩ := Option.ne_none_iff_exists'.1 h
    obtain ⟨h0, L, _, h2, h3⟩ := r.core.count c t ht
    cases L with
    | nil => exact absurd h3.symm h0
    | cons k L =>
      obtain ⟨u, hu, e'⟩ := (h2 k).1 (by simp)
      obtain ⟨b, x⟩ := k
      cases b with
      | true => cases hu
      | false =>
        simp only [keys, Option.map_eq_some_iff] at hu
        obtain ⟨a, ha, rfl⟩ := hu
        exact ⟨x, a, ha, e'⟩
  · rintro ⟨x, a, ha, rfl⟩ hn
    exact r.core.nil _ hn _ _ (Rep.key ha) rfl

/-- The program's arrays, no adaptors, no control blocks. -/
def start (next : Nat) (mem : Nat → Option (List α)) : St α := ⟨⟨⟨next, mem⟩, 0, fun _ => none⟩, fun _ => none⟩
/-- The same for the specification. -/
def start' (next : Nat) (mem : Nat → Option (List α)) : Env α := ⟨next, mem, fun _ => none⟩

theorem start_rep (next : Nat) (mem : Nat → Option (List α)) (hm : ∀ p, next ≤ p → mem p = none) :
    Rep (fun p => mem p ≠ none) (start next mem) (start' next mem) := by
  have nokey : ∀ k u, keys (start next mem) k ≠ some u := by
    rintro ⟨b, x⟩ u h
    cases b <;> cases h
  refine ⟨⟨rfl, fun p _ => rfl, fun p h => ?_, fun c _ k u h => absurd h (nokey k u), fun c t h => (by cases h), fun k u t h => absurd h (nokey k u),
    fun c t h => (by cases h), fun c c' t t' h => (by cases h), fun p h => ?_, hm, fun c _ => rfl⟩, fun x => rfl, fun x a h => (by cases h)⟩
  · by_contra hc; exact h (.inl hc)
  · rcases h with h | ⟨k, u, h, _⟩
    · exact h
    · exact absurd h (nokey k u)

/-- **Every legal history runs**: adaptors and program arrays hold what the specification says, where copies share their elements; and at every moment the arrays
in memory are exactly the program's and those some live adaptor refers to. -/
theorem C122_shared_elements (dbg : Bool) (zero : α) (next : Nat) (mem : Nat → Option (List α)) (hm : ∀ p, next ≤ p → mem p = none) (ops : List (Op α × (Nat → α)))
    (hl : legalRun (fun p => mem p ≠ none) (start' next mem) ops) :
    ∃ s, run dbg zero (start next mem) ops = .ok s ∧ Observes dbg (fun p => mem p ≠ none) s (ShallowSpec.run (start' next mem) ops) ∧
      Exact (fun p => mem p ≠ none) s (ShallowSpec.run (start' next mem) ops) := by
  obtain ⟨s, h1, h2⟩ := run_sound dbg zero ops (start_rep next mem hm) hl
  exact ⟨s, h1, h2.observes dbg⟩

/-- When all adaptors are destroyed nothing but the program's arrays is left, and these are all still there. -/
theorem C122_all_destroyed (dbg : Bool) (zero : α) (next : Nat) (mem : Nat → Option (List α)) (hm : ∀ p, next ≤ p → mem p = none) (ops : List (Op α × (Nat → α)))
    (hl : legalRun (fun p => mem p ≠ none) (start' next mem) ops) (hd : ∀ x, (ShallowSpec.run (start' next mem) ops).var x = none) :
    ∃ s, run dbg zero (start next mem) ops = .ok s ∧ (∀ c, s.mem.ctl c = none) ∧ ∀ p, s.mem.heap.blk p ≠ none ↔ mem p ≠ none := by
  obtain ⟨s, h1, h2, h3⟩ := C122_shared_elements dbg zero next mem hm ops hl
  refine ⟨s, h1, fun c => ?_, fun p => ?_⟩
  · by_contra hc
    obtain ⟨x, a, ha, _⟩ := (h3.2 c).1 hc
    rw [(h2.1 x).1 (hd x)] at ha; cases ha
  · rw [h3.1 p]
    constructor
    · rintro (h | ⟨x, q, hq, _⟩)
      · exact h
      · rw [hd x] at hq; cases hq
    · exact .inl

/-- In a checked build an index outside the size is refused, reading or writing. -/
theorem C122_out_of_range (m : Mem α) (a : SArr) (i : Nat) (v : α) (hi : a.size ≤ i) :
    Shallow.index true m a i = .error .badIndex ∧ store true m a i v = .error .badIndex := by
  simp only [Shallow.index, store, check_dbg_false (show ¬ i < a.size by omega), bind_error, and_self]

/-- A history: `x` of two elements, a copy `y`, a write through `y`; `x` shows it; `x` is resized and no longer shares; the first array is released with `y`. -/
def demo : List (Op Int × (Nat → Int)) :=
  [(.ctorInit 0 2 5, fun _ => 9), (.copyCtor 1 0, fun _ => 9), (.store 1 0 7, fun _ => 9), (.resizeInit 0 3 1, fun _ => 9), (.store 0 1 4, fun _ => 9),
   (.attachInit 1 1 0 8, fun _ => 9)]

example : legalRun (fun p => (if p = 0 then some [1, 2, 3] else none : Option (List Int)) ≠ none) (start' 1 fun p => if p = 0 then some [1, 2, 3] else none) demo := by
  refine ⟨rfl, ⟨rfl, Option.some_ne_none _⟩, ⟨Option.some_ne_none _, by decide⟩, Option.some_ne_none _, ⟨Option.some_ne_none _, by decide⟩,
    ⟨Option.some_ne_none _, by decide, _, rfl, by decide⟩, trivial⟩

/-- After it `x` shows 7, 4, 1, `y` shows 7 at the program's array; the array both names shared at first is gone. -/
example : (run true 0 (start 1 fun p => if p = 0 then some [1, 2, 3] else none) demo).map (fun s =>
      (s.var 0, s.var 1, s.mem.heap.blk 0, s.mem.heap.blk 1, s.mem.heap.blk 2, s.mem.ctl 0)) =
    .ok (some ⟨3, true, ⟨2, 1⟩⟩, some ⟨1, false, ⟨0, 2⟩⟩, some [7, 2, 3], none, some [7, 4, 1], none) := rfl

end Ublas.Shallow
