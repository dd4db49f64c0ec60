import Verif.Basic
/-!
# `hermitian_matrix_element` (hermitian.hpp:43-145)

In the default configuration (BOOST_UBLAS_STRICT_HERMITIAN, detail/config.hpp:290) the non-const `operator () (i, j)` of `hermitian_matrix` and `hermitian_adaptor` returns a proxy: a copy of
the element, which is written back by `insert_element` when the proxy is destroyed, if it was modified.  The proxy is modelled over any container that offers the two operations it uses.
-/
namespace Ublas
variable {σ α : Type}

/-- What a proxy uses of its container: the value the non-const `operator ()` copies into it (hermitian.hpp:378-383, 1340-1345), and `insert_element` (388-396, 1348-1358). -/
structure HCont (σ α : Type) where
  load : σ → Nat → Nat → M α
  insert : σ → Nat → Nat → α → M σ

/-- Data members: hermitian.hpp:140-144. -/
structure HProxy (α : Type) where
  i : Nat
  j : Nat
  d : α
  dirty : Bool

/-- The proxy `m (i, j)`: hermitian.hpp:378-383 with the constructor 56-57. -/
def HCont.ref (C : HCont σ α) (s : σ) (i j : Nat) : M (HProxy α) := do
  let d ← C.load s i j
  return ⟨i, j, d, false⟩

/-- `p = x`, `p += x`, ...: hermitian.hpp:64-106; the operator is `F` (`fun _ x => x` for `=`). -/
def HProxy.set (p : HProxy α) (F : α → α → α) (x : α) : HProxy α := { p with d := F p.d x, dirty := true }

/-- The destructor: hermitian.hpp:59-62. -/
def HProxy.destroy (C : HCont σ α) (p : HProxy α) (s : σ) : M σ := if p.dirty then C.insert s p.i p.j p.d else .ok s

/-- Statements that use proxies as temporaries. C++ statements using the proxy of hermitian.hpp:43-145; no code of their own in /repo. -/
inductive HStmt (α : Type)
  /-- `m (i, j) op= x` -/
  | value (i j : Nat) (F : α → α → α) (x : α)
  /-- `m (i, j) op= m (k, l)` -/
  | elem (i j : Nat) (F : α → α → α) (k l : Nat)
  /-- `swap (m (i, j), m (k, l))` -/
  | swap (i j k l : Nat)
  /-- `m (i, j) = m (k, l) = x` -/
  | chain (i j k l : Nat) (x : α)

/-- One statement.  `rightFirst`: the right operand of an assignment is evaluated first (required since C++17, unspecified before); temporaries are destroyed in the reverse order. C++ statements using the proxy of hermitian.hpp:43-145; no code of their own in /repo. -/
def HCont.exec (C : HCont σ α) (rightFirst : Bool) (s : σ) : HStmt α → M σ
  | .value i j F x => do
    let p ← C.ref s i j
    (p.set F x).destroy C s
  | .elem i j F k l => do
    let q ← C.ref s k l
    let p ← C.ref s i j
    let p := p.set F q.d
    if rightFirst then do
      let s ← p.destroy C s
      q.destroy C s
    else do
      let s ← q.destroy C s
      p.destroy C s
  | .swap i j k l => do
    -- the friend function takes both proxies by value and calls the member, which takes a copy `p` of `p2` by value: hermitian.hpp:126-138
    let p1 ← C.ref s i j
    let p2 ← C.ref s k l
    let p : HProxy α := { p2 with d := p1.d, dirty := true }
    let p1' : HProxy α := { p1 with d := p2.d, dirty := true }
    let s ← p.destroy C s
    let s ← p2.destroy C s
    p1'.destroy C s
  | .chain i j k l x => do
    let q ← C.ref s k l
    let p ← C.ref s i j
    let q := q.set (fun _ x => x) x
    let p := p.set (fun _ x => x) q.d
    if rightFirst then do
      let s ← p.destroy C s
      q.destroy C s
    else do
      let s ← q.destroy C s
      p.destroy C s

/-- Statements one after another. C++ statements using the proxy of hermitian.hpp:43-145; no code of their own in /repo. -/
def HCont.execs (C : HCont σ α) (rightFirst : Bool) : σ → List (HStmt α) → M σ
  | s, [] => .ok s
  | s, x :: xs => C.exec rightFirst s x >>= fun s' => C.execs rightFirst s' xs

/-! A block that gives names to elements (`auto &&r0 = m (i0, j0); ...`), works on the names and ends. -/

/-- An operand: a value or the value of name `q` (`operator const_reference`, hermitian.hpp:122-124). -/
inductive HOperand (α : Type)
  | const (x : α)
  | name (q : Nat)

/-- `r_p op= x`. C++ statements using the proxy of hermitian.hpp:43-145; no code of their own in /repo. -/
structure HAct (α : Type) where
  p : Nat
  F : α → α → α
  x : HOperand α

/-- Binding the names in order. C++ statements using the proxy of hermitian.hpp:43-145; no code of their own in /repo. -/
def HCont.bind (C : HCont σ α) (s : σ) : List (Nat × Nat) → M (List (HProxy α))
  | [] => .ok []
  | (i, j) :: l => do
    let p ← C.ref s i j
    let ps ← C.bind s l
    return p :: ps

/-- C++ statements using the proxy of hermitian.hpp:43-145; no code of their own in /repo. -/
def HOperand.value (ps : List (HProxy α)) : HOperand α → M α
  | .const x => .ok x
  | .name q => match ps[q]? with
    | none => .error .ub
    | .some p => .ok p.d

/-- The body. Client histories: composes the operations cited in this file; no code of its own in /repo. -/
def HAct.runs : List (HProxy α) → List (HAct α) → M (List (HProxy α))
  | ps, [] => .ok ps
  | ps, a :: as => do
    let x ← a.x.value ps
    match ps[a.p]? with
    | none => .error .ub
    | .some p => HAct.runs (ps.set a.p (p.set a.F x)) as

/-- End of the block: the names are destroyed, last bound first. C++ statements using the proxy of hermitian.hpp:43-145; no code of their own in /repo. -/
def HCont.unbind (C : HCont σ α) : List (HProxy α) → σ → M σ
  | [], s => .ok s
  | p :: ps, s => do
    let s ← C.unbind ps s
    p.destroy C s

/-- The whole block. C++ statements using the proxy of hermitian.hpp:43-145; no code of their own in /repo. -/
def HCont.block (C : HCont σ α) (s : σ) (names : List (Nat × Nat)) (body : List (HAct α)) : M σ := do
  let ps ← C.bind s names
  let ps ← HAct.runs ps body
  C.unbind ps s

end Ublas
