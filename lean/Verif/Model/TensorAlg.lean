import Verif.Model.Tensor
/-!
# Tensor algorithms on pointers and strides: copy, transform, accumulate, trans

A pointer is an offset into the memory of its tensor. The functions below walk with up to three pointers `c`, `a`, `b` at once; all of them are calls of nested counted loops in which each pointer
is advanced by a stride after each iteration. Pointers to `n`, `w`, ... are lists, read with `rd` (reading past the end is `ub`). Simplifications: the strides of a loop are read once before the
loop (they are constant), forming a pointer past the end is not an error (only dereferencing it is), null pointers are not modelled.
-/
namespace Ublas.Tens
variable {R σ : Type}

/-- The three walking pointers (or their strides). Local pointers of the recursions in tensor/algorithms.hpp:59-71, 115-124, 271-280 and tensor/multiplication.hpp. -/
structure Ptrs where
  c : Nat
  a : Nat
  b : Nat
  deriving DecidableEq, Repr

/-- `c += wc, a += wa, b += wb`. tensor/algorithms.hpp:63, 68, 119, 122, 275, 278 and the loops of tensor/multiplication.hpp. -/
def Ptrs.add (p w : Ptrs) : Ptrs := ⟨p.c + w.c, p.a + w.a, p.b + w.b⟩

/-- `for (i = 0; i < n; c += wc, a += wa, b += wb, ++i) body`. A client's loop; the iterator operations are cited at their definitions. -/
def sweep (body : Ptrs → σ → M σ) (w : Ptrs) : Nat → Ptrs → σ → M σ
  | 0, _, s => .ok s
  | n + 1, p, s => do
    let s ← body p s
    sweep body w n (p.add w) s

/-- The same loop with the counter `auto i = 0u`, an `unsigned int` of 32 bits: compared with a 64 bit bound of 2^32 or more it never ends and the pointers run out of their arrays. tensor/algorithms.hpp:119, 122 (`auto d = 0u`). -/
def sweep32 (body : Ptrs → σ → M σ) (w : Ptrs) (n : Nat) (p : Ptrs) (s : σ) : M σ := if n < 2 ^ 32 then sweep body w n p s else .error .ub

/-- `*c = op (*a)`: algorithms.hpp:69, 123, 278 (`op` is the identity in `copy` and `trans`). -/
def assignVia (op : R → R) (a : List R) (p : Ptrs) (c : List R) : M (List R) := do
  let x ← rd false a p.a
  wr false c p.c (op x)

/-- The recursive lambda of `copy` and `transform`: tensor/algorithms.hpp:59-72, 115-124. -/
def transformRec (op : R → R) (n wc wa : List Nat) (a : List R) : Nat → Ptrs → List R → M (List R)
  | r + 1, p, c => do
    let k ← rd false n (r + 1)
    let x ← rd false wc (r + 1)
    let y ← rd false wa (r + 1)
    sweep32 (transformRec op n wc wa a r) ⟨x, y, 0⟩ k p c
  | 0, p, c => do
    let k ← rd false n 0
    let x ← rd false wc 0
    let y ← rd false wa 0
    sweep32 (assignVia op a) ⟨x, y, 0⟩ k p c

/-- `transform (p, n, c, wc, a, wa, op)`: algorithms.hpp:92-128. -/
def transform (op : R → R) (p : Nat) (n : List Nat) (c : List R) (wc : List Nat) (a : List R) (wa : List Nat) : M (List R) :=
  if p = 0 then .ok c else transformRec op n wc wa a (p - 1) ⟨0, 0, 0⟩ c

/-- `copy (p, n, c, wc, a, wa)`: algorithms.hpp:36-75; its lambda is the one of `transform` with `*c = *a`. -/
def copy (p : Nat) (n : List Nat) (c : List R) (wc : List Nat) (a : List R) (wa : List Nat) : M (List R) :=
  if p = 0 then .ok c else transformRec (fun x => x) n wc wa a (p - 1) ⟨0, 0, 0⟩ c

/-- The recursive lambda of `accumulate`: algorithms.hpp:163-173 (`op = +`), 213-223. -/
def accumulateRec (op : R → R → R) (n w : List Nat) (a : List R) : Nat → Ptrs → R → M R
  | r + 1, p, k => do
    let m ← rd false n (r + 1)
    let y ← rd false w (r + 1)
    sweep32 (accumulateRec op n w a r) ⟨0, y, 0⟩ m p k
  | 0, p, k => do
    let m ← rd false n 0
    let y ← rd false w 0
    sweep32 (fun p k => do
      let x ← rd false a p.a
      .ok (op k x)) ⟨0, y, 0⟩ m p k

/-- `accumulate (p, n, a, w, k)` and `accumulate (p, n, a, w, k, op)`: algorithms.hpp:143-176, 191-226. -/
def accumulate (op : R → R → R) (p : Nat) (n : List Nat) (a : List R) (w : List Nat) (k : R) : M R :=
  if p = 0 then .ok k else accumulateRec op n w a (p - 1) ⟨0, 0, 0⟩ k

/-- `norm (a)` without the final `std::sqrt`: function/norm.hpp:47-58. -/
def normSquared [Add R] [Mul R] (zero : R) (a : Tensor R) : M R :=
  if a.data = [] then .error .stdException else accumulate (fun l r => l + r * r) a.extents.length a.extents a.data a.strides zero

/-- The recursive lambda of `trans`: algorithms.hpp:271-280; `pi[r]-1` of a zero entry is an index far out of bounds. -/
def transRec (na pi wc wa : List Nat) (a : List R) : Nat → Ptrs → List R → M (List R)
  | r + 1, p, c => do
    let k ← rd false na (r + 1)
    let t ← rd false pi (r + 1)
    let x ← (if t = 0 then .error .ub else rd false wc (t - 1) : M Nat)
    let y ← rd false wa (r + 1)
    sweep32 (transRec na pi wc wa a r) ⟨x, y, 0⟩ k p c
  | 0, p, c => do
    let k ← rd false na 0
    let t ← rd false pi 0
    let x ← (if t = 0 then .error .ub else rd false wc (t - 1) : M Nat)
    let y ← rd false wa 0
    sweep32 (assignVia (fun x => x) a) ⟨x, y, 0⟩ k p c

/-- `trans (p, na, pi, c, wc, a, wa)`: algorithms.hpp:243-283. The overload for `std::complex<V>*` (302-339), which conjugates, takes a pointer to non-const `a` and is not the one called by
`trans (tensor, tau)`. -/
def transRaw (p : Nat) (na pi : List Nat) (c : List R) (wc : List Nat) (a : List R) (wa : List Nat) : M (List R) :=
  if p < 2 then .ok c else transRec na pi wc wa a (p - 1) ⟨0, 0, 0⟩ c

/-- `for (i...) nc.at (tau.at (i) - 1) = na.at (i)`: function/trans.hpp:59-61; `at` throws. -/
def permuteExtents (na tau : List Nat) : M (List Nat) :=
  loop (fun i nc => do
    let t ← vectorAt tau i
    let x ← vectorAt na i
    if t = 0 ∨ nc.length < t then .error .stdException else .ok (nc.set (t - 1) x)) na.length (List.replicate na.length 0)

/-- `trans (a, tau)`: function/trans.hpp:42-74. -/
def trans (L : Layout) (zero : R) (a : Tensor R) (tau : List Nat) : M (Tensor R) := do
  let nc ← permuteExtents a.extents tau
  let c ← create L nc zero
  if a.data = [] then .ok c
  else do
    let d ← transRaw a.extents.length a.extents tau c.data c.strides a.data a.strides
    .ok { c with data := d }

end Ublas.Tens
