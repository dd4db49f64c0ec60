import Verif.Model.Operation
import Verif.Model.Packed
import Verif.Model.Solve
/-!
# Text output and input: io.hpp

An input stream is the rest of its characters and whether it is still usable; extraction skips white space (`std::skipws`, the default).  Reading sizes is modelled for the classic locale and decimal
format; writing and reading of elements are parameters.  What a failed extraction leaves in the stream buffer is not modelled, nor is the value it leaves in its argument (nothing of it is used:
the stream has failed).
-/
namespace Ublas.IO
variable {σ R : Type}

/-- C++ standard library (`std::basic_istream`): state and remaining characters. -/
structure IS where
  buf : List Char
  ok : Bool
  deriving DecidableEq, Repr

/-- `std::isspace` in the classic locale. C++ standard library, not code of /repo. -/
def isWs (c : Char) : Bool := c = ' ' || c = '\t' || c = '\n' || c = '\x0b' || c = '\x0c' || c = '\x0d'
/-- C++ standard library (`std::ws` behaviour of formatted input). -/
def skipWs (b : List Char) : List Char := b.dropWhile isWs

/-- `is.setstate (std::ios_base::failbit)`. C++ standard library, not code of /repo. -/
def IS.fail (s : IS) : IS := ⟨s.buf, false⟩

/-- `is >> ch`. C++ standard library; called at io.hpp:94, 102, 206-249, 289-341. -/
def IS.get (s : IS) : Option Char × IS :=
  if s.ok then
    match skipWs s.buf with
    | [] => (none, ⟨[], false⟩)
    | c :: b => (some c, ⟨b, true⟩)
  else (none, s)

/-- `if (is >> ch && ch != c) { is.putback (ch); … }`: whether the branch is taken, and the stream after `putback`. io.hpp:94-95, 102-103, 206-207, 217-218, 222-223, 289-290, 300-301. -/
def IS.differs (c : Char) (s : IS) : Bool × IS :=
  match s.get with
  | (some ch, t) => if ch ≠ c then (true, ⟨ch :: t.buf, t.ok⟩) else (false, t)
  | (none, t) => (false, t)

/-- Decimal digits, most significant first: `os << n` for a `size_t`. C++ standard library (`num_put`); called from io.hpp:46-65, 145-180. -/
def digits (n : Nat) : List Char :=
  if h : n < 10 then [Char.ofNat (48 + n)] else digits (n / 10) ++ [Char.ofNat (48 + n % 10)]

/-- C++ standard library. -/
def isDigit (c : Char) : Bool := 48 ≤ c.toNat && c.toNat ≤ 57

/-- The optional sign of a number: whether it is a minus sign, and the rest. C++ standard library (`num_get`). -/
def sign : List Char → Bool × List Char
  | [] => (false, [])
  | c :: b => if c = '-' then (true, b) else if c = '+' then (false, b) else (false, c :: b)

/-- `is >> n` for a `size_t`: the longest sequence of digits, with an optional sign (a minus sign negates modulo 2^64); more than 2^64 - 1 fails. C++ standard library (`num_get`); called at io.hpp:97, 209, 212, 292, 295. -/
def readSize (b : List Char) : Option (Nat × List Char) :=
  let p := sign (skipWs b)
  let ds := p.2.takeWhile isDigit
  let n := ds.foldl (fun a c => 10 * a + (c.toNat - 48)) 0
  if ds = [] ∨ 2 ^ 64 ≤ n then none
  else some (if p.1 then (2 ^ 64 - n) % 2 ^ 64 else n, p.2.dropWhile isDigit)

/-- How elements are written and read. The element type's stream operators; called from io.hpp:46-65, 107, 145-180, 228, 311. -/
structure ElemIO (R : Type) where
  print : R → List Char
  read : List Char → Option (R × List Char)

/-- `is >> x`. The element type's `operator >>`; called at io.hpp:107, 228, 311. -/
def IS.extract {α : Type} (read : List Char → Option (α × List Char)) (s : IS) : Option α × IS :=
  if s.ok then
    match read s.buf with
    | some (a, b) => (some a, ⟨b, true⟩)
    | none => (none, s.fail)
  else (none, s)

/-- Characters of a comma-separated list. io.hpp:46-65, 145-180. -/
def commas : List (List Char) → List Char
  | [] => []
  | [x] => x
  | x :: y :: r => x ++ ',' :: commas (y :: r)

/-- `os << v`: io.hpp:46-63; the text of the elements, the first without, the others with a comma in front. -/
def writeVector (E : ElemIO R) (v : List R) : List Char :=
  '[' :: digits v.length ++ ']' :: '(' :: commas (v.map E.print) ++ [')']

/-- `os << m`: io.hpp:148-178; `rows` are the rows of the matrix, `c` its number of columns. -/
def writeMatrix (E : ElemIO R) (c : Nat) (rows : List (List R)) : List Char :=
  '[' :: digits rows.length ++ ',' :: digits c ++ ']' :: '(' :: commas (rows.map fun row => '(' :: commas (row.map E.print) ++ [')']) ++ [')']

/-- The loops over the elements of a vector (io.hpp:106-113), the elements of a row (227-235) and the rows of a matrix (221-248): read item `i`, leave if that broke off, then
`if (is >> ch && ch != ',') { is.putback (ch); if (i < n - 1) { is.setstate (failbit); break; } }`.  In the vector loop the `break` also happens at the last element, where the loop ends anyway. -/
def itemsLoop (n : Nat) (item : Nat → σ → IS → M (Bool × σ × IS)) : (k i : Nat) → σ → IS → M (σ × IS)
  | 0, _, x, s => .ok (x, s)
  | k + 1, i, x, s => do
    let r ← item i x s
    if r.1 then .ok r.2 else
      let d := r.2.2.differs ','
      if d.1 then
        if i < n - 1 then .ok (r.2.1, d.2.fail) else itemsLoop n item k (i + 1) r.2.1 d.2
      else itemsLoop n item k (i + 1) r.2.1 d.2

/-- `is >> s (i)`. io.hpp:107, 228. -/
def readInto (E : ElemIO R) (put : Nat → R → σ → M σ) (i : Nat) (x : σ) (s : IS) : M (Bool × σ × IS) :=
  match s.extract E.read with
  | (some a, t) => do
    let y ← put i a x
    .ok (false, y, t)
  | (none, t) => .ok (false, x, t)

/-- The part of `is >> v` after the sizes: io.hpp:102-118, 217-253, 300-345. -/
def readBody (n : Nat) (item : Nat → σ → IS → M (Bool × σ × IS)) (x : σ) (s : IS) : M (σ × IS) :=
  let d := s.differs '('
  if d.1 then .ok (x, d.2.fail)
  else if d.2.ok then do
    let r ← itemsLoop n item n 0 x d.2
    let e := r.2.differs ')'
    if e.1 then .ok (r.1, e.2.fail) else .ok (r.1, e.2)
  else .ok (x, d.2)

/-- `is >> v`: io.hpp:87-123.  `cap` is the largest number of elements that `vector<VT, VA> s (size)` can allocate; the elements of `s` are `junk`. -/
def readVector (dbg : Bool) (E : ElemIO R) (cap : Nat) (junk : R) (v : List R) (s : IS) : M (List R × IS) :=
  let d := s.differs '['
  if d.1 then .ok (v, d.2.fail) else
    let z := d.2.extract readSize
    let d := z.2.differs ']'
    if d.1 then .ok (v, d.2.fail)
    else if d.2.ok then
      match z.1 with
      | none => .error .ub
      | some n =>
        if cap < n then .error .stdException else do
          let r ← readBody n (readInto E fun i a (x : List R) => wr dbg x i a) (List.replicate n junk) d.2
          if r.2.ok then .ok r else .ok (v, r.2)
    else .ok (v, d.2)

/-- The two sizes of a matrix: io.hpp:206-215, 289-298; `square` for a symmetric matrix.  `none`: the stream has failed. -/
def readSizes (square : Bool) (s : IS) : Option (Nat × Nat) × IS :=
  let d := s.differs '['
  if d.1 then (none, d.2.fail) else
    let z1 := d.2.extract readSize
    let d := z1.2.differs ','
    if d.1 then (none, d.2.fail) else
      let z2 := d.2.extract readSize
      let g := z2.2.get
      match g.1 with
      | some ch => if (square = true ∧ z2.1 ≠ z1.1) ∨ ch ≠ ']' then (none, ⟨ch :: g.2.buf, false⟩)
          else match z1.1, z2.1 with
            | some n, some m => (some (n, m), g.2)
            | _, _ => (none, g.2)
      | none => (none, g.2)

/-- One row: io.hpp:222-240. -/
def readRow (E : ElemIO R) (c : Nat) (put : Nat → Nat → R → σ → M σ) (i : Nat) (x : σ) (s : IS) : M (Bool × σ × IS) :=
  let d := s.differs '('
  if d.1 then .ok (true, x, d.2.fail) else do
    let r ← itemsLoop c (readInto E (put i)) c 0 x d.2
    let e := r.2.differs ')'
    if e.1 then .ok (true, r.1, e.2.fail) else .ok (false, r.1, e.2)

/-- `is >> m` for a matrix: io.hpp:199-258.  `make r c` constructs `s (size1, size2)`, or throws when it cannot be allocated. -/
def readMatrix (E : ElemIO R) (make : Nat → Nat → M σ) (put : Nat → Nat → R → σ → M σ) (m : σ) (s : IS) : M (σ × IS) :=
  match readSizes false s with
  | (none, s) => .ok (m, s)
  | (some (r, c), s) => do
    let x ← make r c
    let q ← readBody r (readRow E c put) x s
    if q.2.ok then .ok q else .ok (m, q.2)

/-- The elements of a row of a symmetric matrix: io.hpp:310-327; elements below the diagonal are compared. -/
def symLoop [DecidableEq R] (E : ElemIO R) (n : Nat) (A : Acc σ (Nat × Nat) R) (i : Nat) : (k j : Nat) → σ → IS → M (σ × IS)
  | 0, _, x, s => .ok (x, s)
  | k + 1, j, x, s =>
    let v := s.extract E.read
    let d := v.2.differs ','
    if d.1 = true ∧ j < n - 1 then .ok (x, d.2.fail)
    else match v.1 with
      | none => symLoop E n A i k (j + 1) x d.2
      | some a =>
        if i ≤ j then do
          let y ← A.set x (i, j) a
          symLoop E n A i k (j + 1) y d.2
        else do
          let b ← A.get x (i, j)
          if b ≠ a then .ok (x, d.2.fail) else symLoop E n A i k (j + 1) x d.2

/-- One row of a symmetric matrix: io.hpp:305-332. -/
def readSymRow [DecidableEq R] (E : ElemIO R) (n : Nat) (A : Acc σ (Nat × Nat) R) (i : Nat) (x : σ) (s : IS) : M (Bool × σ × IS) :=
  let d := s.differs '('
  if d.1 then .ok (true, x, d.2.fail) else do
    let r ← symLoop E n A i n 0 x d.2
    let e := r.2.differs ')'
    if e.1 then .ok (true, r.1, e.2.fail) else .ok (false, r.1, e.2)

/-- `is >> m` for a symmetric matrix: io.hpp:281-350. -/
def readSymmetric [DecidableEq R] (E : ElemIO R) (make : Nat → Nat → M σ) (A : Acc σ (Nat × Nat) R) (m : σ) (s : IS) : M (σ × IS) :=
  match readSizes true s with
  | (none, s) => .ok (m, s)
  | (some (r, c), s) => do
    let x ← make r c
    let q ← readBody r (readSymRow E c A) x s
    if q.2.ok then .ok q else .ok (m, q.2)

/-- `matrix<MT, MF, MA> s (size1, size2)`: matrix.hpp:131-134; the number of elements is computed modulo 2^64, with a check in debug mode (functional.hpp:1408-1412, 1586-1590);
the allocation of more than `cap` elements throws. -/
def makeDense (dbg : Bool) (cap : Nat) (junk : Nat → R) (o : Orient) (r c : Nat) : M (Dense R) := do
  match o with
  | .row => check dbg (c = 0 ∨ r ≤ (2 ^ 64 - 1) / c) .badSize
  | .col => check dbg (r = 0 ∨ c ≤ (2 ^ 64 - 1) / r) .badSize
  let n := r * c % 2 ^ 64
  if cap < n then .error .stdException else .ok ⟨r, c, (List.range n).map junk⟩

/-- `is >> m` for a dense matrix. io.hpp:200-257. -/
def readDense (dbg : Bool) (E : ElemIO R) (cap : Nat) (junk : Nat → R) (o : Orient) : Dense R → IS → M (Dense R × IS) :=
  readMatrix E (makeDense dbg cap junk o) fun i j a x => x.set dbg o i j a

/-- Element access of a symmetric matrix: symmetric.hpp:144-165. -/
def symAcc (dbg : Bool) (t : Tri) (o : Orient) : Acc (Packed.SMat R) (Nat × Nat) R := ⟨fun m p => m.get dbg t o p.1 p.2, fun m p => m.set dbg t o p.1 p.2⟩

/-- `is >> m` for a symmetric matrix; `symmetric_matrix s (size1, size2)` is symmetric.hpp:78-81 (the number of elements does not wrap around here). -/
def readSMat [DecidableEq R] (dbg : Bool) (E : ElemIO R) (cap : Nat) (junk : Nat → R) (t : Tri) (o : Orient) : Packed.SMat R → IS → M (Packed.SMat R × IS) :=
  readSymmetric E (fun r _ => do
    let m ← Packed.SMat.make dbg t junk r
    if cap < m.data.length then .error .stdException else .ok m) (symAcc dbg t o)

end Ublas.IO
