import Verif.Props.TensorTen
import Verif.Lemmas.Solve
/-! # C55: `prod (a, b, phia, phib)` -/
namespace Ublas.Tens
variable {R : Type}

/-- The modes of a tensor of order `p` (one-based, increasing) that are not in the list `phi`. -/
def rest (p : Nat) (phi : List Nat) : List Nat := (List.range' 1 p).filter fun t => t ∉ phi

/-- `phi` lists different modes of a tensor of order `p`. -/
def Modes (p : Nat) (phi : List Nat) : Prop := phi.Nodup ∧ ∀ t ∈ phi, 1 ≤ t ∧ t ≤ p

theorem filter_ne_length {l : List Nat} {t : Nat} (h : t ∈ l) (hn : l.Nodup) : (l.filter (· ≠ t)).length + 1 = l.length := by
  have h1 : l.filter (· ≠ t) = l.erase t := by
    rw [hn.erase_eq_filter]
    exact List.filter_congr fun x _ => by by_cases hx : x = t <;> simp [hx]
  rw [h1, List.length_erase_of_mem h]
  have := List.length_pos_of_mem h
  omega

theorem moveToBack_ok {l m : List Nat} {t : Nat} (h : t ∈ l) (hn : (l ++ m).Nodup) : moveToBack (l ++ m) t = .ok (l.filter (· ≠ t) ++ (m ++ [t])) := by
  have hlen := filter_ne_length (List.mem_append_left m h) hn
  have hm : m.filter (· ≠ t) = m := by
    rw [List.filter_eq_self]
    intro x hx
    have := (List.nodup_append.1 hn).2.2 t h x hx
    simpa using fun hc => this hc.symm
  have hfil : (l ++ m).filter (· ≠ t) = l.filter (· ≠ t) ++ m := by rw [List.filter_append, hm]
  rw [moveToBack, if_pos (by omega)]
  obtain ⟨x, hx⟩ : ∃ x, (l ++ m).drop ((l ++ m).filter (· ≠ t)).length = [x] := List.length_eq_one_iff.1 (by rw [List.length_drop]; omega)
  rw [hx, List.set_append_right _ _ (le_refl _), Nat.sub_self, hfil, List.append_assoc]
  rfl

theorem completeModes_aux {p : Nat} : ∀ (todo done : List Nat), (∀ t ∈ todo, 1 ≤ t ∧ t ≤ p) → (done ++ todo).Nodup → (∀ t ∈ done, 1 ≤ t ∧ t ≤ p) →
    List.foldlM moveToBack (rest p done ++ done) todo = (.ok (rest p (done ++ todo) ++ (done ++ todo)) : M (List Nat)) := by
  intro todo
  induction todo with
  | nil => intro done _ _ _; simp only [List.foldlM_nil, List.append_nil]; rfl
  | cons t todo ih =>
    intro done h1 h2 h3
    have ht : t ∉ done := fun hc => (List.nodup_append.1 h2).2.2 t hc t (by simp) rfl
    have hdn : done.Nodup := (List.nodup_append.1 h2).1
    have hmem : t ∈ rest p done := by
      rw [rest, List.mem_filter]
      exact ⟨by rw [List.mem_range'_1]; have := h1 t (by simp); omega, by simpa using ht⟩
    have hnd : (rest p done ++ done).Nodup := by
      rw [List.nodup_append]
      refine ⟨List.Nodup.filter _ List.nodup_range', hdn, fun a ha b hb hab => ?_⟩
      rw [rest, List.mem_filter] at ha
      subst hab
      simp only [decide_eq_true_eq] at ha
      exact ha.2 hb
    have hr : (rest p done).filter (· ≠ t) = rest p (done ++ [t]) := by
      rw [rest, List.filter_filter, rest]
      refine List.filter_congr fun x _ => ?_
      by_cases hx : x = t <;> simp [hx]
    rw [List.foldlM_cons, moveToBack_ok hmem hnd, bind_ok, hr]
    have := ih (done ++ [t]) (fun x hx => h1 x (by simp [hx])) (by rw [List.append_assoc]; exact h2) (fun x hx => by
      rcases List.mem_append.1 hx with h | h
      · exact h3 x h
      · rw [List.mem_singleton] at h; subst h; exact h1 x (by simp))
    rw [this, List.append_assoc]
    rfl

/-- The completed list of modes: first the ones that stay, then the contracted ones. -/
theorem completeModes_ok {p : Nat} {phi : List Nat} (h : Modes p phi) : completeModes p phi = .ok (rest p phi ++ phi) := by
  have := completeModes_aux phi [] h.2 (by simpa using h.1) (by simp)
  have hr : rest p [] = List.range' 1 p := by simp [rest]
  rw [List.append_nil, hr, List.nil_append] at this
  exact this

theorem modes_perm {p : Nat} {phi : List Nat} (h : Modes p phi) : IsPerm p (rest p phi ++ phi) := by
  rw [IsPerm, List.perm_ext_iff_of_nodup]
  · intro t
    rw [List.mem_append, rest, List.mem_filter, List.mem_range'_1]
    constructor
    · rintro (h1 | h1)
      · exact h1.1
      · have := h.2 t h1; omega
    · intro h1
      by_cases ht : t ∈ phi
      · exact Or.inr ht
      · exact Or.inl ⟨h1, by simpa using ht⟩
  · rw [List.nodup_append]
    refine ⟨List.Nodup.filter _ List.nodup_range', h.1, fun a ha b hb hab => ?_⟩
    rw [rest, List.mem_filter] at ha
    subst hab
    simp only [decide_eq_true_eq] at ha
    exact ha.2 hb
  · exact List.nodup_range'

theorem fillExtents_ok {na phi pre mid post : List Nat} {r off : Nat} (hpre : pre.length = off) (hmid : mid.length = r) (hr : r ≤ phi.length) (hphi : ∀ k, k < r → 1 ≤ phi.getD k 0 ∧ phi.getD k 0 ≤ na.length) :
    fillExtents na phi r off (pre ++ mid ++ post) = .ok (pre ++ (pick phi na).take r ++ post) := by
  obtain ⟨t, e, h⟩ := loop_inv (f := fun i nc => (do
    let x ← rdPerm na phi i
    wr false nc (off + i) x : M (List Nat))) (n := r) (s := pre ++ mid ++ post) (fun k s => s = pre ++ ((pick phi na).take k ++ mid.drop k) ++ post) (by simp) (by
      intro k t hk ht
      have hp := hphi k hk
      have hpl : k < (pick phi na).length := by rw [pick_length]; omega
      have hd : mid.drop k = mid[k] :: mid.drop (k + 1) := (List.getElem_cons_drop (h := by omega)).symm
      refine ⟨_, ?_, rfl⟩
      beta_reduce
      rw [rdPerm_getD (by omega) (by omega) (by omega), bind_ok, ht, wr_ok (by simp; omega)]
      congr 1
      rw [← pick_getD (by omega), List.append_assoc pre, List.set_append_right _ _ (by omega), List.append_assoc pre, show off + k - pre.length = k by omega]
      congr 1
      have hkt : ((pick phi na).take k).length = k := by rw [List.length_take]; omega
      rw [List.append_assoc, List.set_append_right _ _ (by omega), hkt, Nat.sub_self, getD_lt hpl, hd, List.cons_append, List.set_cons_zero, List.take_succ_eq_append_getElem hpl, List.append_assoc, List.append_assoc]
      rfl)
  rw [fillExtents, e, h, ← hmid, List.drop_length, List.append_nil]

theorem pick_append (π π' j : List Nat) : pick (π ++ π') j = pick π j ++ pick π' j := List.map_append

theorem rest_length {p : Nat} {phi : List Nat} (h : Modes p phi) : (rest p phi).length + phi.length = p := by
  have := (modes_perm h).length
  rwa [List.length_append] at this

theorem pick_positive {p : Nat} {phi e : List Nat} (hp : ∀ t ∈ phi, 1 ≤ t ∧ t ≤ p) (he : e.length = p) (h : ∀ n ∈ e, 0 < n) : ∀ n ∈ pick phi e, 0 < n := fun n hn => by
  obtain ⟨t, ht, rfl⟩ := List.mem_map.1 hn
  have := hp t ht
  exact h _ (getD_mem (by omega))

theorem rest_mem {p : Nat} {phi : List Nat} : ∀ t ∈ rest p phi, 1 ≤ t ∧ t ≤ p := fun t ht => by
  rw [rest, List.mem_filter, List.mem_range'_1] at ht; omega

theorem pick_lt32 {p : Nat} {phi e : List Nat} (hp : ∀ t ∈ phi, 1 ≤ t ∧ t ≤ p) (he : e.length = p) (h : ∀ n ∈ e, n < 2 ^ 32) : ∀ n ∈ pick phi e, n < 2 ^ 32 := fun n hn => by
  obtain ⟨t, ht, rfl⟩ := List.mem_map.1 hn
  have := hp t ht
  exact h _ (getD_mem (by omega))

/-- The extents of the product: those of the free modes of `a`, then of `b`, then ones up to rank two. -/
def prodExtents (ea phia eb phib : List Nat) : List Nat :=
  pick (rest ea.length phia) ea ++ pick (rest eb.length phib) eb ++ List.replicate (2 - ((ea.length - phia.length) + (eb.length - phib.length))) 1

/-- The test of the contracted extents in `prod`. -/
theorem prod_check {ea eb phia phib : List Nat} (hl : phia.length = phib.length) (ha : ∀ t ∈ phia, 1 ≤ t ∧ t ≤ ea.length) (hb : ∀ t ∈ phib, 1 ≤ t ∧ t ≤ eb.length) (hext : pick phia ea = pick phib eb) :
    loop (fun i _ => (do
      let t ← vectorAt phia i
      let u ← vectorAt phib i
      let x ← (if t = 0 then .error .stdException else vectorAt ea (t - 1) : M Nat)
      let y ← (if u = 0 then .error .stdException else vectorAt eb (u - 1) : M Nat)
      if x ≠ y then .error .stdException else .ok () : M Unit)) phia.length () = .ok () := by
  obtain ⟨_, e, _⟩ := loop_inv (f := fun i (_ : Unit) => (do
      let t ← vectorAt phia i
      let u ← vectorAt phib i
      let x ← (if t = 0 then .error .stdException else vectorAt ea (t - 1) : M Nat)
      let y ← (if u = 0 then .error .stdException else vectorAt eb (u - 1) : M Nat)
      if x ≠ y then .error .stdException else .ok () : M Unit)) (n := phia.length) (s := ()) (fun _ _ => True) trivial (by
    intro k t hk _
    have h1 := ha _ (getD_mem hk)
    have h2 := hb _ (getD_mem (show k < phib.length by omega))
    have v : ∀ (l : List Nat) i, i < l.length → vectorAt l i = .ok (l.getD i 0) := fun l i hi => by rw [vectorAt, List.getElem?_eq_getElem hi, getD_lt hi]
    have hxy : ea.getD (phia.getD k 0 - 1) 0 = eb.getD (phib.getD k 0 - 1) 0 := by
      rw [← pick_getD hk, hext, pick_getD (by omega)]
    refine ⟨(), ?_, trivial⟩
    beta_reduce
    rw [v _ _ hk, bind_ok, v _ _ (show k < phib.length by omega), bind_ok, if_neg (by omega), v _ _ (by omega), bind_ok, if_neg (by omega), v _ _ (by omega), bind_ok, hxy, if_neg (by simp)])
  exact e

/-- **C55**, `prod (A, B, φ, ψ)` for tensors of any ranks and layouts and any lists of different modes with matching extents (with two static ranks: when at least two modes stay free):
`C (i, j) = ∑ z, A (free modes = i, modes φ = z) * B (free modes = j, modes ψ = z)`. -/
theorem C55_prod_partial [NonUnitalNonAssocSemiring R] {dyn : Bool} {L La Lb : Layout} {a b : Tensor R} {ea eb phia phib : List Nat} {f g : List Nat → R} (ha : Holds La a ea f) (hb : Holds Lb b eb g)
    (hsa : ∀ n ∈ ea, n < 2 ^ 32) (hsb : ∀ n ∈ eb, n < 2 ^ 32) (hma : Modes ea.length phia) (hmb : Modes eb.length phib) (hl : phia.length = phib.length) (hext : pick phia ea = pick phib eb)
    (hdyn : dyn = true ∨ 2 ≤ (ea.length - phia.length) + (eb.length - phib.length)) :
    ∃ c, prodTensor dyn L 0 a b phia phib = .ok c ∧ Holds L c (prodExtents ea phia eb phib) (fun j => sumBox (pick phia ea) fun z =>
      f (place (rest ea.length phia ++ phia) (j.take (ea.length - phia.length) ++ z)) *
      g (place (rest eb.length phib ++ phib) ((j.drop (ea.length - phia.length)).take (eb.length - phib.length) ++ z))) := by
  have hla := rest_length hma
  have hlb := rest_length hmb
  have hpa := modes_perm hma
  have hpb := modes_perm hmb
  set r := ea.length - phia.length with hr
  set s := eb.length - phib.length with hs
  set q := phia.length with hq
  have hra : (rest ea.length phia).length = r := by omega
  have hrb : (rest eb.length phib).length = s := by omega
  set e := pick (rest ea.length phia) ea ++ pick (rest eb.length phib) eb with he
  have hel : e.length = r + s := by rw [he, List.length_append, pick_length, pick_length]; omega
  set k := 2 - (r + s) with hk
  have hpe : prodExtents ea phia eb phib = e ++ List.replicate k 1 := rfl
  have hpos : ∀ n ∈ e ++ List.replicate k 1, 0 < n := fun n hn => by
    rcases List.mem_append.1 hn with hn | hn
    · rcases List.mem_append.1 hn with hn | hn
      · exact pick_positive rest_mem rfl ha.positive n hn
      · exact pick_positive rest_mem rfl hb.positive n hn
    · rw [List.eq_of_mem_replicate hn]; omega
  have hne : e ++ List.replicate k 1 ≠ [] := fun hc => by
    have := congrArg List.length hc
    rw [List.length_append, List.length_replicate, List.length_nil] at this; omega
  have h32 : ∀ n ∈ e ++ List.replicate k 1, n < 2 ^ 32 := fun n hn => by
    rcases List.mem_append.1 hn with hn | hn
    · rcases List.mem_append.1 hn with hn | hn
      · exact pick_lt32 rest_mem rfl hsa n hn
      · exact pick_lt32 rest_mem rfl hsb n hn
    · rw [List.eq_of_mem_replicate hn]; omega
  obtain ⟨c, hc1, hc2⟩ := create_holds L hpos hne (0 : R)
  obtain ⟨p1, p2, p3⟩ := pad_target hc2
  rw [hel] at p1 p2 p3
  have htk : (e ++ List.replicate k 1).take (r + s) = e := by rw [← hel, List.take_left]
  have hpta : (pick (rest ea.length phia ++ phia) ea).take r = pick (rest ea.length phia) ea := by rw [pick_append, ← hra, ← pick_length (rest ea.length phia) ea, List.take_left]
  have hptb : (pick (rest eb.length phib ++ phib) eb).take s = pick (rest eb.length phib) eb := by rw [pick_append, ← hrb, ← pick_length (rest eb.length phib) eb, List.take_left]
  have hpda : (pick (rest ea.length phia ++ phia) ea).drop r = pick phia ea := by rw [pick_append, ← hra, ← pick_length (rest ea.length phia) ea, List.drop_left]
  have hpdb : (pick (rest eb.length phib ++ phib) eb).drop s = pick phib eb := by rw [pick_append, ← hrb, ← pick_length (rest eb.length phib) eb, List.drop_left]
  have hcl := strides_length hc2
  rw [List.length_append, List.length_replicate] at hcl
  have hargs : TttArgs r s q (e ++ List.replicate k 1) c.strides (rest ea.length phia ++ phia) ea a.strides (rest eb.length phib ++ phib) eb b.strides :=
    ⟨hpa, hpb, by omega, by omega, strides_length ha, strides_length hb, ⟨by rw [List.length_append]; omega, by omega⟩, by rw [hpda, hpdb, hext],
      by rw [hpta, List.take_append_of_le_length (by omega), he, List.take_append_of_le_length (by rw [pick_length]; omega), List.take_of_length_le (by rw [pick_length]; omega)],
      by rw [htk, hptb, he, ← hra, ← pick_length (rest ea.length phia) ea, List.drop_left]⟩
  have hfirst : fillExtents ea (rest ea.length phia ++ phia) r 0 (List.replicate (max (r + s) 2) (if dyn then 1 else 0)) =
      .ok (pick (rest ea.length phia) ea ++ List.replicate (max (r + s) 2 - r) (if dyn then 1 else 0)) := by
    have := fillExtents_ok (na := ea) (phi := rest ea.length phia ++ phia) (pre := []) (mid := List.replicate r (if dyn then 1 else 0)) (post := List.replicate (max (r + s) 2 - r) (if dyn then 1 else 0))
      (r := r) (off := 0) rfl (by simp) (by rw [List.length_append]; omega) (fun k hk => hpa.get (by omega))
    rw [List.nil_append, List.nil_append, hpta, ← List.replicate_add, show r + (max (r + s) 2 - r) = max (r + s) 2 by omega] at this
    exact this
  have hsecond : fillExtents eb (rest eb.length phib ++ phib) s r (pick (rest ea.length phia) ea ++ List.replicate (max (r + s) 2 - r) (if dyn then 1 else 0)) = .ok (e ++ List.replicate k 1) := by
    have := fillExtents_ok (na := eb) (phi := rest eb.length phib ++ phib) (pre := pick (rest ea.length phia) ea) (mid := List.replicate s (if dyn then 1 else 0))
      (post := List.replicate k (if dyn then 1 else 0)) (r := s) (off := r) (by rw [pick_length]; omega) (by simp) (by rw [List.length_append]; omega) (fun k hk => hpb.get (by omega))
    rw [hptb, List.append_assoc (pick (rest ea.length phia) ea) (List.replicate s _), ← List.replicate_add, show s + k = max (r + s) 2 - r by omega] at this
    rw [this, ← he]
    rcases hdyn with rfl | h2
    · rfl
    · rw [show k = 0 by omega]; rfl
  have hra0 := List.length_pos_of_ne_nil ha.rank
  have hrb0 := List.length_pos_of_ne_nil hb.rank
  suffices hmain : ∃ d, ttt ea.length eb.length q (rest ea.length phia ++ phia) (rest eb.length phib ++ phib) c.data (e ++ List.replicate k 1) c.strides a.data ea a.strides b.data eb b.strides = .ok d ∧
      d.length = c.data.length ∧ Lay d e (c.strides.take (r + s)) (fun i => sumBox (pick phia ea) fun z =>
        f (place (rest ea.length phia ++ phia) (i.take r ++ z)) * g (place (rest eb.length phib ++ phib) (i.drop r ++ z))) by
    obtain ⟨d, e1, e2, e3⟩ := hmain
    refine ⟨{ c with data := d }, ?_, ?_⟩
    · have hck := prod_check hl hma.2 hmb.2 hext
      rw [prodTensor]
      simp only [ha.extents, hb.extents]
      rw [if_neg (by omega), hck, bind_ok, completeModes_ok hma, bind_ok, completeModes_ok hmb, bind_ok, show ea.length - phia.length = r from rfl, show eb.length - phia.length = s by omega, hfirst, bind_ok, hsecond, bind_ok, hc1, bind_ok, hc2.extents, e1, bind_ok]
    · rw [hpe]
      have := p3 d e2 _ e3
      have hfun : (fun j : List Nat => sumBox (pick phia ea) fun z => f (place (rest ea.length phia ++ phia) ((j.take (r + s)).take r ++ z)) * g (place (rest eb.length phib ++ phib) ((j.take (r + s)).drop r ++ z))) =
          fun j => sumBox (pick phia ea) fun z => f (place (rest ea.length phia ++ phia) (j.take r ++ z)) * g (place (rest eb.length phib ++ phib) ((j.drop r).take s ++ z)) := by
        funext j
        rw [List.take_take, Nat.min_eq_left (by omega), List.drop_take, show r + s - r = s by omega]
      rw [← hfun]
      exact this
  by_cases hq0 : 0 < q
  · obtain ⟨d, e1, e2, e3, _⟩ := C55_ttt hargs hq0 (lay_of_holds ha) (lay_of_holds hb) (by rw [htk]; exact p1) (by rw [htk]; exact p2)
    rw [htk, hpda] at e3
    exact ⟨d, e1, e2, e3.congr fun i hi => by rw [zero_add]⟩
  · have hq00 : q = 0 := by omega
    rw [hq00] at hargs ⊢
    obtain ⟨d, e1, e2, e3, _⟩ := C55_ttt_outer hargs ha.rank hb.rank h32 (lay_of_holds ha) (lay_of_holds hb) (by rw [htk]; exact p1) (by rw [htk]; exact p2)
    rw [htk] at e3
    have hn : phia = [] := List.length_eq_zero_iff.1 hq00
    have hn' : phib = [] := List.length_eq_zero_iff.1 (by omega)
    subst hn hn'
    exact ⟨d, e1, e2, e3.congr fun i hi => by simp [pick, sumBox]⟩

/-- **C55**: lists of different lengths, a mode outside `1 .. rank` or contracted extents that differ are refused. -/
theorem C55_prod_refused [Add R] [Mul R] {dyn : Bool} {L : Layout} {a b : Tensor R} {phia phib : List Nat} (zero : R)
    (h : phia.length ≠ phib.length ∨ ∃ k, k < phia.length ∧ (phia.getD k 0 = 0 ∨ a.extents.length < phia.getD k 0 ∨ phib.getD k 0 = 0 ∨ b.extents.length < phib.getD k 0 ∨
      a.extents.getD (phia.getD k 0 - 1) 0 ≠ b.extents.getD (phib.getD k 0 - 1) 0)) : prodTensor dyn L zero a b phia phib = .error .stdException := by
  rw [prodTensor]
  simp only
  by_cases h0 : a.extents.length = 0 ∨ b.extents.length = 0 ∨ a.extents.length < phia.length ∨ b.extents.length < phia.length ∨ phia.length ≠ phib.length
  · rw [if_pos h0]
  · rw [if_neg h0]
    have hl : phia.length = phib.length := by omega
    have v : ∀ (l : List Nat) i, vectorAt l i = if i < l.length then .ok (l.getD i 0) else .error .stdException := fun l i => by
      by_cases hi : i < l.length
      · rw [vectorAt, List.getElem?_eq_getElem hi, if_pos hi, getD_lt hi]
      · rw [vectorAt, List.getElem?_eq_none (by omega), if_neg hi]
    set body : Nat → Unit → M Unit := fun i _ => (do
      let t ← vectorAt phia i
      let u ← vectorAt phib i
      let x ← (if t = 0 then .error .stdException else vectorAt a.extents (t - 1) : M Nat)
      let y ← (if u = 0 then .error .stdException else vectorAt b.extents (u - 1) : M Nat)
      if x ≠ y then .error .stdException else .ok () : M Unit) with hbody
    have hb : ∀ i, i < phia.length → body i () = if phia.getD i 0 = 0 ∨ a.extents.length < phia.getD i 0 ∨ phib.getD i 0 = 0 ∨ b.extents.length < phib.getD i 0 ∨
        a.extents.getD (phia.getD i 0 - 1) 0 ≠ b.extents.getD (phib.getD i 0 - 1) 0 then .error .stdException else .ok () := fun i hi => by
      rw [hbody]
      beta_reduce
      rw [v, if_pos hi, bind_ok, v, if_pos (by omega), bind_ok, v, v]
      by_cases c1 : phia.getD i 0 = 0
      · rw [if_pos c1, bind_error, if_pos (Or.inl c1)]
      · rw [if_neg c1]
        by_cases c2 : phia.getD i 0 - 1 < a.extents.length
        · rw [if_pos c2, bind_ok]
          by_cases c3 : phib.getD i 0 = 0
          · rw [if_pos c3, bind_error, if_pos (by omega)]
          · rw [if_neg c3]
            by_cases c4 : phib.getD i 0 - 1 < b.extents.length
            · rw [if_pos c4, bind_ok]
              by_cases c5 : a.extents.getD (phia.getD i 0 - 1) 0 ≠ b.extents.getD (phib.getD i 0 - 1) 0
              · rw [if_pos c5, if_pos (by omega)]
              · rw [if_neg c5, if_neg (by omega)]
            · rw [if_neg c4, bind_error, if_pos (by omega)]
        · rw [if_neg c2, bind_error, if_pos (by omega)]
    have hloop : ∀ n, n ≤ phia.length → (∃ k, k < n ∧ (phia.getD k 0 = 0 ∨ a.extents.length < phia.getD k 0 ∨ phib.getD k 0 = 0 ∨ b.extents.length < phib.getD k 0 ∨
        a.extents.getD (phia.getD k 0 - 1) 0 ≠ b.extents.getD (phib.getD k 0 - 1) 0)) → loop body n () = .error .stdException := fun n hn => by
      induction n with
      | zero => rintro ⟨k, hk, _⟩; omega
      | succ n ih =>
        rintro ⟨k, hk, hbad⟩
        rw [loop]
        by_cases hkn : k = n
        · cases hlo : loop body n () with
          | ok u => rw [bind_ok, hb n (by omega), if_pos (hkn ▸ hbad)]
          | error x =>
            rw [bind_error]
            congr 1
            have hall : ∀ m, m ≤ phia.length → ∀ x, loop body m () = .error x → x = .stdException := fun m hm => by
              induction m with
              | zero => intro x hx; cases hx
              | succ m ihm =>
                intro x hx
                rw [loop] at hx
                cases hl2 : loop body m () with
                | ok u =>
                  rw [hl2, bind_ok, hb m (by omega)] at hx
                  split at hx
                  · exact (Except.error.inj hx).symm
                  · cases hx
                | error y =>
                  rw [hl2, bind_error] at hx
                  rw [← Except.error.inj hx]
                  exact ihm (by omega) y hl2
            exact hall n (by omega) x hlo
        · rw [ih (by omega) ⟨k, by omega, hbad⟩, bind_error]
    rcases h with h | ⟨k, hk, h⟩
    · exact absurd hl h
    · rw [hloop _ (le_refl _) ⟨k, hk, h⟩, bind_error]

/-- **C55** refuted for two static ranks when fewer than two modes stay free (full contraction, or a vector result): the extents of the result are left at zero and the constructor throws. -/
theorem C55_static_refuted [Add R] [Mul R] {L La Lb : Layout} {a b : Tensor R} {ea eb phia phib : List Nat} {f g : List Nat → R} (ha : Holds La a ea f) (hb : Holds Lb b eb g)
    (hma : Modes ea.length phia) (hmb : Modes eb.length phib) (hl : phia.length = phib.length) (hext : pick phia ea = pick phib eb)
    (hfew : (ea.length - phia.length) + (eb.length - phib.length) < 2) (zero : R) : prodTensor false L zero a b phia phib = .error .stdException := by
  have hla := rest_length hma
  have hlb := rest_length hmb
  have hpa := modes_perm hma
  have hpb := modes_perm hmb
  set r := ea.length - phia.length with hr
  set s := eb.length - phib.length with hs
  have hra : (rest ea.length phia).length = r := by omega
  have hrb : (rest eb.length phib).length = s := by omega
  have hpta : (pick (rest ea.length phia ++ phia) ea).take r = pick (rest ea.length phia) ea := by rw [pick_append, ← hra, ← pick_length (rest ea.length phia) ea, List.take_left]
  have hptb : (pick (rest eb.length phib ++ phib) eb).take s = pick (rest eb.length phib) eb := by rw [pick_append, ← hrb, ← pick_length (rest eb.length phib) eb, List.take_left]
  have hfirst : fillExtents ea (rest ea.length phia ++ phia) r 0 (List.replicate (max (r + s) 2) 0) = .ok (pick (rest ea.length phia) ea ++ List.replicate (max (r + s) 2 - r) 0) := by
    have := fillExtents_ok (na := ea) (phi := rest ea.length phia ++ phia) (pre := []) (mid := List.replicate r 0) (post := List.replicate (max (r + s) 2 - r) 0)
      (r := r) (off := 0) rfl (by simp) (by rw [List.length_append]; omega) (fun k hk => hpa.get (by omega))
    rw [List.nil_append, List.nil_append, hpta, ← List.replicate_add, show r + (max (r + s) 2 - r) = max (r + s) 2 by omega] at this
    exact this
  have hsecond : fillExtents eb (rest eb.length phib ++ phib) s r (pick (rest ea.length phia) ea ++ List.replicate (max (r + s) 2 - r) 0) =
      .ok (pick (rest ea.length phia) ea ++ pick (rest eb.length phib) eb ++ List.replicate (2 - (r + s)) 0) := by
    have := fillExtents_ok (na := eb) (phi := rest eb.length phib ++ phib) (pre := pick (rest ea.length phia) ea) (mid := List.replicate s 0)
      (post := List.replicate (2 - (r + s)) 0) (r := s) (off := r) (by rw [pick_length]; omega) (by simp) (by rw [List.length_append]; omega) (fun k hk => hpb.get (by omega))
    rw [hptb, List.append_assoc (pick (rest ea.length phia) ea) (List.replicate s _), ← List.replicate_add, show s + (2 - (r + s)) = max (r + s) 2 - r by omega] at this
    exact this
  have hra0 := List.length_pos_of_ne_nil ha.rank
  have hrb0 := List.length_pos_of_ne_nil hb.rank
  rw [prodTensor]
  simp only [ha.extents, hb.extents]
  rw [if_neg (by omega), prod_check hl hma.2 hmb.2 hext, bind_ok, completeModes_ok hma, bind_ok, completeModes_ok hmb, bind_ok, show ea.length - phia.length = r from rfl,
    show eb.length - phia.length = s by omega, if_neg (by simp), hfirst, bind_ok, hsecond, bind_ok, create_invalid, bind_error]
  intro hc
  have := hc 0 (by
    rw [List.mem_append]
    right
    obtain ⟨t, ht⟩ : ∃ t, 2 - (r + s) = t + 1 := ⟨2 - (r + s) - 1, by omega⟩
    rw [ht]; simp)
  omega

/-- Contraction of mode 2 of a 2 x 3 x 2 tensor with mode 1 of a 3 x 2 one (different layouts). -/
example : (do
    let a ← createFrom .first [2, 3, 2] ((List.range 12).map fun x => (x : Int))
    let b ← createFrom .last [3, 2] [1, 2, 3, 4, 5, 6]
    let c ← prodTensor true .first 0 a b [2] [1]
    .ok (c.extents, c.data) : M (List Nat × List Int)) = .ok ([2, 2, 2], [26, 35, 80, 89, 32, 44, 104, 116]) := by decide
example : Modes 3 [2] ∧ Modes 2 [1] ∧ pick [2] [2, 3, 2] = pick [1] [3, 2] ∧ rest 3 [2] = [1, 3] := by
  refine ⟨⟨by decide, by decide⟩, ⟨by decide, by decide⟩, by decide, by decide⟩
/-- Full contraction: fine with dynamic ranks, refused with static ones. -/
example : (do
    let a ← createFrom .first [2, 2] [1, 2, 3, 4]
    let c ← prodTensor true .first 0 a a [1, 2] [2, 1]
    .ok (c.extents, c.data) : M (List Nat × List Int)) = .ok ([1, 1], [29]) := by decide
example : (do
    let a ← createFrom .first [2, 2] [1, 2, 3, 4]
    let c ← prodTensor false .first 0 a a [1, 2] [2, 1]
    .ok (c.extents, c.data) : M (List Nat × List Int)) = .error .stdException := by decide

end Ublas.Tens
