import Verif.Model.TensorAlg
import Mathlib.Algebra.Ring.Defs
/-! # Tensor contractions: tensor/multiplication.hpp and the `prod`, `inner_prod`, `outer_prod` functions built on it -/
namespace Ublas.Tens
variable {R : Type}

/-- `*c += *a * *b`: multiplication.hpp:78, 141, 184, 237, 286, 330, 366, 405. -/
def mac [Add R] [Mul R] (a b : List R) (p : Ptrs) (c : List R) : M (List R) := do
  let x ← rd false a p.a
  let y ← rd false b p.b
  let z ← rd false c p.c
  wr false c p.c (z + x * y)

/-! ## Tensor times vector -/

/-- `detail::recursive::ttv (m, r, q, ...)`: multiplication.hpp:269-295. `q - 1` is only used for the strides of the loops above `r = 0`, where `q` is positive. -/
def ttvRec [Add R] [Mul R] (m : Nat) (wc na wa : List Nat) (a b : List R) : Nat → Nat → Ptrs → List R → M (List R)
  | 0, _, p, c =>
    if m = 0 then .error .ub
    else do
      let k ← rd false na 0
      let x ← rd false wc 0
      let y ← rd false wa 0
      sweep32 (fun p c => do
        let km ← rd false na m
        let ym ← rd false wa m
        sweep32 (mac a b) ⟨0, ym, 1⟩ km p c) ⟨x, y, 0⟩ k p c
  | r + 1, q, p, c =>
    if r + 1 = m then ttvRec m wc na wa a b r q p c
    else do
      let k ← rd false na (r + 1)
      let x ← rd false wc q
      let y ← rd false wa (r + 1)
      sweep32 (ttvRec m wc na wa a b r (q - 1)) ⟨x, y, 0⟩ k p c

/-- `detail::recursive::ttv0 (r, ...)`: multiplication.hpp:313-336; `ttv0Rec r` is the call with the argument `r + 1` (the wrapper passes `p - 1 >= 2`). -/
def ttv0Rec [Add R] [Mul R] (wc na wa : List Nat) (a b : List R) : Nat → Ptrs → List R → M (List R)
  | r + 1, p, c => do
    let k ← rd false na (r + 2)
    let x ← rd false wc (r + 1)
    let y ← rd false wa (r + 2)
    sweep32 (ttv0Rec wc na wa a b r) ⟨x, y, 0⟩ k p c
  | 0, p, c => do
    let k ← rd false na 1
    let x ← rd false wc 0
    let y ← rd false wa 1
    sweep32 (fun p c => do
      let k0 ← rd false na 0
      let y0 ← rd false wa 0
      sweep32 (mac a b) ⟨0, y0, 1⟩ k0 p c) ⟨x, y, 0⟩ k p c

/-- `detail::recursive::mtv (m, ...)`: multiplication.hpp:353-371. -/
def mtv [Add R] [Mul R] (m : Nat) (wc na wa : List Nat) (a b : List R) (c : List R) : M (List R) := do
  let o := if m = 0 then 1 else 0
  let k ← rd false na o
  let x ← rd false wc o
  let y ← rd false wa o
  sweep32 (fun p c => do
    let km ← rd false na m
    let ym ← rd false wa m
    sweep32 (mac a b) ⟨0, ym, 1⟩ km p c) ⟨x, y, 0⟩ k ⟨0, 0, 0⟩ c

/-- `detail::recursive::inner (r, n, a, wa, b, wb, v)`: multiplication.hpp:431-449. -/
def innerRec [Add R] [Mul R] (n wa wb : List Nat) (a b : List R) : Nat → Ptrs → R → M R
  | 0, p, v => do
    let k ← rd false n 0
    let x ← rd false wa 0
    let y ← rd false wb 0
    sweep32 (fun p v => do
      let s ← rd false a p.a
      let t ← rd false b p.b
      .ok (v + s * t)) ⟨0, x, y⟩ k p v
  | r + 1, p, v => do
    let k ← rd false n (r + 1)
    let x ← rd false wa (r + 1)
    let y ← rd false wb (r + 1)
    sweep32 (innerRec n wa wb a b r) ⟨0, x, y⟩ k p v

/-- `for (i = lo; i < hi; ++i) if (x[i] != y[i - off]) throw std::length_error (...)`: the extent tests of multiplication.hpp:640-650, 719-728, 796-813, 872-885, with `get`s for the two sides. -/
def expectEqual (lhs rhs : Nat → M Nat) (n : Nat) : M Unit :=
  loop (fun i _ => do
    let x ← lhs i
    let y ← rhs i
    if x ≠ y then .error .stdException else .ok ()) n ()

/-- `ttv (m, p, c, nc, wc, a, na, wa, b, nb, wb)`: multiplication.hpp:620-674. -/
def ttv [Add R] [Mul R] (zero : R) (m p : Nat) (c : List R) (nc wc : List Nat) (a : List R) (na wa : List Nat) (b : List R) (nb wb : List Nat) : M (List R) :=
  if m = 0 ∨ p < m ∨ p = 0 then .error .stdException
  else do
    expectEqual (fun i => rd false na i) (fun i => rd false nc i) (m - 1)
    expectEqual (fun i => rd false na (m + i)) (fun i => rd false nc (m + i - 1)) (p - m)
    let b0 ← rd false nb 0
    let b1 ← rd false nb 1
    let x ← rd false na (m - 1)
    if x ≠ max b0 b1 then .error .stdException
    else if m ≠ 1 ∧ 2 < p then ttvRec (m - 1) wc na wa a b (p - 1) (p - 2) ⟨0, 0, 0⟩ c
    else if m = 1 ∧ 2 < p then ttv0Rec wc na wa a b (p - 2) ⟨0, 0, 0⟩ c
    else if p = 2 then mtv (m - 1) wc na wa a b c
    else do
      let v ← innerRec na wa wb a b 0 ⟨0, 0, 0⟩ zero
      wr false c 0 v

/-- `nc_base`: the extents of `a` without mode `m`, padded with ones to at least two: function/tensor_times_vector.hpp:89-94; `at` does not throw here. -/
def ttvExtents (na : List Nat) (m : Nat) : List Nat :=
  let l := na.eraseIdx (m - 1)
  l ++ List.replicate (max (na.length - 1) 2 - l.length) 1

/-- `prod (a, b, m)` for a tensor and a vector (dynamic rank: function/tensor_times_vector.hpp:64-106; static rank: 132-176, the same code): `b` is the memory of the vector. -/
def prodVec [Add R] [Mul R] (L : Layout) (zero : R) (a : Tensor R) (b : List R) (m : Nat) : M (Tensor R) :=
  if m = 0 ∨ a.extents.length < m ∨ a.data = [] ∨ b = [] then .error .stdException
  else do
    let nb ← mkExtents [b.length, 1]
    let wb ← toStrides L nb
    let c ← create L (ttvExtents a.extents m) zero
    let d ← ttv zero m a.extents.length c.data c.extents c.strides a.data a.extents a.strides b nb wb
    .ok { c with data := d }

/-! ## Tensor times matrix -/

/-- `detail::recursive::ttm (m, r, ...)`: multiplication.hpp:166-196. -/
def ttmRec [Add R] [Mul R] (m : Nat) (nc wc na wa nb wb : List Nat) (a b : List R) : Nat → Ptrs → List R → M (List R)
  | 0, p, c =>
    if m = 0 then .error .ub
    else do
      let k ← rd false nc 0
      let x ← rd false wc 0
      let y ← rd false wa 0
      sweep (fun p c => do
        let k1 ← rd false nc m
        let x1 ← rd false wc m
        let z1 ← rd false wb 0
        sweep (fun p c => do
          let k2 ← rd false nb 1
          let y2 ← rd false wa m
          let z2 ← rd false wb 1
          sweep (mac a b) ⟨0, y2, z2⟩ k2 p c) ⟨x1, 0, z1⟩ k1 p c) ⟨x, y, 0⟩ k p c
  | r + 1, p, c =>
    if r + 1 = m then ttmRec m nc wc na wa nb wb a b r p c
    else do
      let k ← rd false na (r + 1)
      let x ← rd false wc (r + 1)
      let y ← rd false wa (r + 1)
      sweep (ttmRec m nc wc na wa nb wb a b r) ⟨x, y, 0⟩ k p c

/-- `detail::recursive::ttm0 (r, ...)`: multiplication.hpp:215-243, for `r >= 1`: `ttm0Rec r` is the call with argument `r + 1`; the call with argument 0 takes the same branch as the one with 1. -/
def ttm0Rec [Add R] [Mul R] (nc wc na wa nb wb : List Nat) (a b : List R) : Nat → Ptrs → List R → M (List R)
  | r + 1, p, c => do
    let k ← rd false na (r + 2)
    let x ← rd false wc (r + 2)
    let y ← rd false wa (r + 2)
    sweep (ttm0Rec nc wc na wa nb wb a b r) ⟨x, y, 0⟩ k p c
  | 0, p, c => do
    let k ← rd false nc 1
    let x ← rd false wc 1
    let y ← rd false wa 1
    sweep (fun p c => do
      let k1 ← rd false nc 0
      let x1 ← rd false wc 0
      let z1 ← rd false wb 0
      sweep (fun p c => do
        let k2 ← rd false nb 1
        let y2 ← rd false wa 0
        let z2 ← rd false wb 1
        sweep32 (mac a b) ⟨0, y2, z2⟩ k2 p c) ⟨x1, 0, z1⟩ k1 p c) ⟨x, y, 0⟩ k p c

/-- `ttm (m, p, c, nc, wc, a, na, wa, b, nb, wb)`: multiplication.hpp:699-747. -/
def ttm [Add R] [Mul R] (m p : Nat) (c : List R) (nc wc : List Nat) (a : List R) (na wa : List Nat) (b : List R) (nb wb : List Nat) : M (List R) :=
  if m = 0 ∨ p < m ∨ p = 0 then .error .stdException
  else do
    expectEqual (fun i => rd false na i) (fun i => rd false nc i) (m - 1)
    expectEqual (fun i => rd false na (m + i)) (fun i => rd false nc (m + i)) (p - m)
    let b0 ← rd false nb 0
    let b1 ← rd false nb 1
    let x ← rd false na (m - 1)
    let y ← rd false nc (m - 1)
    if x ≠ b1 ∨ y ≠ b0 then .error .stdException
    else if m ≠ 1 then ttmRec (m - 1) nc wc na wa nb wb a b (p - 1) ⟨0, 0, 0⟩ c
    else ttm0Rec nc wc na wa nb wb a b (p - 2) ⟨0, 0, 0⟩ c

/-- `prod (a, b, m)` for a tensor and a matrix: function/tensor_times_matrix.hpp:64-105. `b` is the memory of the `size1` x `size2` matrix, of the same layout. -/
def prodMat [Add R] [Mul R] (L : Layout) (zero : R) (a : Tensor R) (size1 size2 : Nat) (b : List R) (m : Nat) : M (Tensor R) := do
  let nb ← mkExtents [size1, size2]
  if m = 0 ∨ a.extents.length < m then .error .stdException
  else do
    let x ← rd false a.extents (m - 1)
    if x ≠ size2 then .error .stdException
    else do
      let wb ← toStrides L nb
      let c ← create L (a.extents.set (m - 1) size1) zero
      let d ← ttm m a.extents.length c.data c.extents c.strides a.data a.extents a.strides b nb wb
      .ok { c with data := d }

/-! ## Tensor times tensor -/

/-- `w[phi[k] - 1]`: a zero entry of `phi` is an index far out of bounds. tensor/multiplication.hpp:50-80, called with the raw permutation. -/
def rdPerm (w phi : List Nat) (k : Nat) : M Nat := do
  let t ← rd false phi k
  if t = 0 then .error .ub else rd false w (t - 1)

/-- `detail::recursive::ttt (k, r, s, q, phia, phib, ...)`: multiplication.hpp:49-82 (the asserts repeat the tests of the wrapper). `f` counts the remaining calls: the recursion on `k` ends at
`k = r + s + q - 1`. -/
def tttRec [Add R] [Mul R] (r s q : Nat) (phia phib nc wc na wa wb : List Nat) (a b : List R) : Nat → Nat → Ptrs → List R → M (List R)
  | f + 1, k, p, c =>
    if k < r then do
      let n ← rd false nc k
      let x ← rd false wc k
      let y ← rdPerm wa phia k
      sweep (tttRec r s q phia phib nc wc na wa wb a b f (k + 1)) ⟨x, y, 0⟩ n p c
    else if k < r + s then do
      let n ← rd false nc k
      let x ← rd false wc k
      let z ← rdPerm wb phib (k - r)
      sweep (tttRec r s q phia phib nc wc na wa wb a b f (k + 1)) ⟨x, 0, z⟩ n p c
    else if k < r + s + q - 1 then do
      let n ← rdPerm na phia (k - s)
      let y ← rdPerm wa phia (k - s)
      let z ← rdPerm wb phib (k - r)
      sweep (tttRec r s q phia phib nc wc na wa wb a b f (k + 1)) ⟨0, y, z⟩ n p c
    else do
      let n ← rdPerm na phia (k - s)
      let y ← rdPerm wa phia (k - s)
      let z ← rdPerm wb phib (k - r)
      sweep (mac a b) ⟨0, y, z⟩ n p c
  | 0, _, _, _ => .error .diverge

/-- `detail::recursive::outer (k, r, s, phia, phib, ...)`: multiplication.hpp:552-579. -/
def outerPermRec [Mul R] (r s : Nat) (phia phib nc wc wa wb : List Nat) (a b : List R) : Nat → Nat → Ptrs → List R → M (List R)
  | f + 1, k, p, c =>
    if k < r then do
      let n ← rd false nc k
      let x ← rd false wc k
      let y ← rdPerm wa phia k
      sweep (outerPermRec r s phia phib nc wc wa wb a b f (k + 1)) ⟨x, y, 0⟩ n p c
    else if k < r + s - 1 then do
      let n ← rd false nc k
      let x ← rd false wc k
      let z ← rdPerm wb phib (k - r)
      sweep (outerPermRec r s phia phib nc wc wa wb a b f (k + 1)) ⟨x, 0, z⟩ n p c
    else do
      let n ← rd false nc k
      let x ← rd false wc k
      let z ← rdPerm wb phib (k - r)
      sweep32 (fun p c => do
        let u ← rd false a p.a
        let v ← rd false b p.b
        wr false c p.c (u * v)) ⟨x, 0, z⟩ n p c
  | 0, _, _, _ => .error .diverge

/-- `ttt (pa, pb, q, phia, phib, c, nc, wc, a, na, wa, b, nb, wb)`: multiplication.hpp:776-821. (`q > pa && q > pb` lets a `q` through that exceeds one of the orders; then `pa - q` wraps around
and the loops read far out of bounds.) -/
def ttt [Add R] [Mul R] (pa pb q : Nat) (phia phib : List Nat) (c : List R) (nc wc : List Nat) (a : List R) (na wa : List Nat) (b : List R) (nb wb : List Nat) : M (List R) :=
  if pa = 0 ∨ pb = 0 then .error .stdException
  else if pa < q ∧ pb < q then .error .stdException
  else if pa < q ∨ pb < q then .error .ub
  else do
    let r := pa - q
    let s := pb - q
    expectEqual (fun i => rdPerm na phia i) (fun i => rd false nc i) r
    expectEqual (fun i => rdPerm nb phib i) (fun i => rd false nc (r + i)) s
    expectEqual (fun i => rdPerm nb phib (s + i)) (fun i => rdPerm na phia (r + i)) q
    if q = 0 then outerPermRec r s phia phib nc wc wa wb a b (r + s) 0 ⟨0, 0, 0⟩ c
    else tttRec r s q phia phib nc wc na wa wb a b (r + s + q) 0 ⟨0, 0, 0⟩ c

/-- `*std::remove (v.begin (), v.end (), p) = p`: std::remove moves the elements other than `p` to the front, keeping their order, and returns the end of that part; the cells behind it keep what
they held (the values there are unspecified by the standard; the implementations move by assignment and leave them). With no `p` in `v` the write is past the end. tensor/function/tensor_times_tensor.hpp:134, 142, 280, 284. -/
def moveToBack (v : List Nat) (p : Nat) : M (List Nat) :=
  let l := v.filter (· ≠ p)
  if l.length < v.length then .ok ((l ++ v.drop l.length).set l.length p) else .error .ub

/-- `phia1`: the modes of `a` that are not contracted, in order, followed by `phia`: function/tensor_times_tensor.hpp:122-134. -/
def completeModes (p : Nat) (phi : List Nat) : M (List Nat) := phi.foldlM moveToBack (List.range' 1 p)

/-- `nc_base[off + i] = na[phi[i] - 1]` for `i < r`: function/tensor_times_tensor.hpp:137-138, 145-146. -/
def fillExtents (na phi : List Nat) (r off : Nat) (nc : List Nat) : M (List Nat) :=
  loop (fun i nc => do
    let x ← rdPerm na phi i
    wr false nc (off + i) x) r nc

/-- `prod (a, b, phia, phib)`: function/tensor_times_tensor.hpp:74-163 (one of the ranks is dynamic) and 225-307 (`dynamic = false`, both ranks static: there the extents of the result are not
preset to one). -/
def prodTensor [Add R] [Mul R] (dynamic : Bool) (L : Layout) (zero : R) (a b : Tensor R) (phia phib : List Nat) : M (Tensor R) :=
  let pa := a.extents.length
  let pb := b.extents.length
  let q := phia.length
  if pa = 0 ∨ pb = 0 ∨ pa < q ∨ pb < q ∨ q ≠ phib.length then .error .stdException
  else do
    loop (fun i _ => do
      let t ← vectorAt phia i
      let u ← vectorAt phib i
      let x ← (if t = 0 then .error .stdException else vectorAt a.extents (t - 1) : M Nat)
      let y ← (if u = 0 then .error .stdException else vectorAt b.extents (u - 1) : M Nat)
      if x ≠ y then .error .stdException else .ok ()) q ()
    let r := pa - q
    let s := pb - q
    let phia1 ← completeModes pa phia
    let phib1 ← completeModes pb phib
    let nc ← fillExtents a.extents phia1 r 0 (List.replicate (max (r + s) 2) (if dynamic then 1 else 0))
    let nc ← fillExtents b.extents phib1 s r nc
    let c ← create L nc zero
    let d ← ttt pa pb q phia1 phib1 c.data c.extents c.strides a.data a.extents a.strides b.data b.extents b.strides
    .ok { c with data := d }

/-! ## Inner and outer products -/

/-- `inner (p, n, a, wa, b, wb, v)`: multiplication.hpp:919-936. -/
def inner [Add R] [Mul R] (p : Nat) (n : List Nat) (a : List R) (wa : List Nat) (b : List R) (wb : List Nat) (v : R) : M R :=
  if p < 2 then .error .stdException else innerRec n wa wb a b (p - 1) ⟨0, 0, 0⟩ v

/-- `inner_prod (a, b)` for dynamic extents (for other kinds of extents see `innerProdK` in Model/TensorStatic): function/inner_prod.hpp:41-65. -/
def innerProd [Add R] [Mul R] (zero : R) (a b : Tensor R) : M R :=
  if a.extents.length ≠ b.extents.length then .error .stdException
  else if a.data = [] ∨ b.data = [] then .error .stdException
  else if a.extents ≠ b.extents then .error .stdException
  else inner a.extents.length a.extents a.data a.strides b.data b.strides zero

/-- `*c0 = *a0 * new_b` in the two inner loops of `outer_2x2`: multiplication.hpp:465-473. -/
def outerInner [Mul R] (na wc wa : List Nat) (a : List R) (v : R) (p : Ptrs) (c : List R) : M (List R) := do
  let k ← rd false na 1
  let x ← rd false wc 1
  let y ← rd false wa 1
  sweep32 (fun p c => do
    let k0 ← rd false na 0
    let x0 ← rd false wc 0
    let y0 ← rd false wa 0
    sweep (fun p c => do
      let u ← rd false a p.a
      wr false c p.c (u * v)) ⟨x0, y0, 0⟩ k0 p c) ⟨x, y, 0⟩ k p c

/-- `detail::recursive::outer_2x2 (pa, ...)`: multiplication.hpp:451-477. -/
def outer2x2 [Mul R] (pa : Nat) (wc na wa nb wb : List Nat) (a b : List R) (p : Ptrs) (c : List R) : M (List R) := do
  let k ← rd false nb 1
  let x ← rd false wc (pa + 1)
  let z ← rd false wb 1
  sweep32 (fun p c => do
    let k0 ← rd false nb 0
    let x0 ← rd false wc pa
    let z0 ← rd false wb 0
    sweep32 (fun p c => do
      let v ← rd false b p.b
      outerInner na wc wa a v p c) ⟨x0, 0, z0⟩ k0 p c) ⟨x, 0, z⟩ k p c

/-- The second branch of `detail::recursive::outer`: multiplication.hpp:515-519, 520-522; `outerA ra` is the call with `rb = 1` and `ra + 1`. -/
def outerA [Mul R] (pa : Nat) (wc na wa nb wb : List Nat) (a b : List R) : Nat → Ptrs → List R → M (List R)
  | 0, p, c => outer2x2 pa wc na wa nb wb a b p c
  | ra + 1, p, c => do
    let k ← rd false na (ra + 2)
    let x ← rd false wc (ra + 2)
    let y ← rd false wa (ra + 2)
    sweep32 (outerA pa wc na wa nb wb a b ra) ⟨x, y, 0⟩ k p c

/-- `detail::recursive::outer (pa, rc, ..., ra, ..., rb, ...)`: multiplication.hpp:503-523; `outerB rb rc` is the call with `rb + 1` and `rc`. -/
def outerB [Mul R] (pa ra : Nat) (wc na wa nb wb : List Nat) (a b : List R) : Nat → Nat → Ptrs → List R → M (List R)
  | 0, _, p, c => outerA pa wc na wa nb wb a b ra p c
  | rb + 1, rc, p, c => do
    let k ← rd false nb (rb + 2)
    let x ← rd false wc rc
    let z ← rd false wb (rb + 2)
    sweep32 (outerB pa ra wc na wa nb wb a b rb (rc - 1)) ⟨x, 0, z⟩ k p c

/-- `outer (c, pc, nc, wc, a, pa, na, wa, b, pb, nb, wb)`: multiplication.hpp:958-977. -/
def outer [Mul R] (c : List R) (pc : Nat) (wc : List Nat) (a : List R) (pa : Nat) (na wa : List Nat) (b : List R) (pb : Nat) (nb wb : List Nat) : M (List R) :=
  if pa < 2 ∨ pb < 2 then .error .stdException
  else if pa + pb ≠ pc then .error .stdException
  else outerB pa (pa - 2) wc na wa nb wb a b (pb - 2) (pc - 1) ⟨0, 0, 0⟩ c

/-- `outer_prod (a, b)`: function/outer_prod.hpp:69-107 (one of the ranks is dynamic), 135-175 (both static). `L` is the layout of the result: the one of the operand with dynamic rank. -/
def outerProd [Mul R] (L : Layout) (zero : R) (a b : Tensor R) : M (Tensor R) :=
  if a.data = [] ∨ b.data = [] then .error .stdException
  else do
    let c ← create L (a.extents ++ b.extents) zero
    let d ← outer c.data c.extents.length c.strides a.data a.extents.length a.extents a.strides b.data b.extents.length b.extents b.strides
    .ok { c with data := d }

end Ublas.Tens
