import Verif.Model.Assigner
/-! # Specification of comma assignment: which elements are written, in which order -/
namespace Ublas.Assigner
variable {σ ι R : Type}

/-- Which policy writes which value where. -/
structure Write (ι R : Type) where
  fill : Fill
  at_ : ι
  val : R

/-- Perform writes one after the other. -/
def perform (T : Target σ ι R) (ws : List (Write ι R)) (s : σ) : M σ := ws.foldlM (fun s w => T w.fill s w.at_ w.val) s

/-- Effect of one write on the mathematical object; `plus` and `minus` add and subtract, the other policies store. -/
def Write.effect [DecidableEq ι] [Add R] [Sub R] (w : ι → R) (a : Write ι R) : ι → R :=
  fun i => if i = a.at_ then (match a.fill with | .plus => w i + a.val | .minus => w i - a.val | _ => a.val) else w i

def effects [DecidableEq ι] [Add R] [Sub R] (ws : List (Write ι R)) (w : ι → R) : ι → R := ws.foldl Write.effect w

/-- Items with the values of the expressions. -/
inductive VSpec (R : Type)
  | vals (xs : List R)
  | moveTo (k : Nat)
  | move (d : Int)
  | fill (f : Fill)

/-- Values go to consecutive positions from the cursor on. -/
def vwrites (f : Fill) (p : Nat) : List (VSpec R) → List (Write Nat R)
  | [] => []
  | .vals xs :: r => xs.mapIdx (fun t x => ⟨f, p + t, x⟩) ++ vwrites f (p + xs.length) r
  | .moveTo k :: r => vwrites f k r
  | .move d :: r => vwrites f (((p : Int) + d) % 2 ^ 64).toNat r
  | .fill g :: r => vwrites g p r

/-- The item stands for these values. -/
inductive VItem.Means : VItem R → VSpec R → Prop
  | val (x : R) : Means (.val x) (.vals [x])
  | vec {at_ : Nat → M R} (xs : List R) (h : ∀ k (hk : k < xs.length), at_ k = .ok xs[k]) : Means (.vec xs.length at_) (.vals xs)
  | moveTo (k : Nat) : Means (.moveTo k) (.moveTo k)
  | move (d : Int) : Means (.move d) (.move d)
  | fill (f : Fill) : Means (.fill f) (.fill f)

/-- Items of a matrix assignment with the values of the expressions. -/
inductive MSpec (R : Type)
  | vals (xs : List R)
  | block (s1 s2 : Nat) (b : Nat → Nat → R)
  | moveTo (i j : Nat)
  | move (d e : Int)
  | begin1
  | begin2
  | nextRow
  | nextColumn
  | fill (f : Fill)
  | traverse (t : Trav)

/-- The cursor as (line, position in the line): lines are rows when traversing by rows, columns when by columns. -/
def inLines (byRow : Bool) (p : Nat × Nat) : Nat × Nat := if byRow then p else (p.2, p.1)

/-- With wrapping, a line of length `len` that is full continues at the start of the next line. -/
def carry (wrap : Bool) (len : Nat) (p : Nat × Nat) : Nat × Nat := if wrap = true ∧ len ≤ p.2 then (p.1 + 1, 0) else p

/-- Where the `t`-th value of a run goes that starts at `p`: with wrapping, to the `t`-th position after `p` in the order of the lines; without, further along the line. -/
def runPos (wrap : Bool) (len : Nat) (p : Nat × Nat) (t : Nat) : Nat × Nat :=
  if wrap then ((p.1 * len + p.2 + t) / len, (p.1 * len + p.2 + t) % len) else (p.1, p.2 + t)

/-- Cursor after a run of `n` values: right after the last one. -/
def runEnd (wrap : Bool) (len : Nat) (p : Nat × Nat) (n : Nat) : Nat × Nat :=
  if n = 0 then p else
    let q := runPos wrap len (carry wrap len p) (n - 1)
    (q.1, q.2 + 1)

/-- The elements of a block placed at (i, j), row by row or column by column. -/
def blockWrites (byRow : Bool) (f : Fill) (i j s1 s2 : Nat) (b : Nat → Nat → R) : List (Write (Nat × Nat) R) :=
  if byRow then (List.range s1).flatMap fun k => (List.range s2).map fun l => ⟨f, (i + k, j + l), b k l⟩
  else (List.range s2).flatMap fun l => (List.range s1).map fun k => ⟨f, (i + k, j + l), b k l⟩

/-- Cursor after a block: behind it on the same band, at the start of the next band if the lines are full. Without wrapping the code moves past the block in both directions. -/
def blockEnd (t : Trav) (r c i j s1 s2 : Nat) : Nat × Nat :=
  if t.wrap then
    if t.byRow then (if c ≤ j + s2 then (i + s1, 0) else (i, j + s2))
    else (if r ≤ i + s1 then (0, j + s2) else (i + s1, j))
  else (i + s1, j + s2)

/-- The writes of a matrix assignment to a target of `r` rows and `c` columns. -/
def mwrites (r c : Nat) (f : Fill) (t : Trav) (i j : Nat) : List (MSpec R) → List (Write (Nat × Nat) R)
  | [] => []
  | .vals xs :: rest =>
    let len := if t.byRow then c else r
    let p := inLines t.byRow (i, j)
    let q := inLines t.byRow (runEnd t.wrap len p xs.length)
    xs.mapIdx (fun k x => ⟨f, inLines t.byRow (runPos t.wrap len (carry t.wrap len p) k), x⟩) ++ mwrites r c f t q.1 q.2 rest
  | .block s1 s2 b :: rest =>
    let q := blockEnd t r c i j s1 s2
    blockWrites t.byRow f i j s1 s2 b ++ mwrites r c f t q.1 q.2 rest
  | .moveTo k l :: rest => mwrites r c f t k l rest
  | .move d e :: rest => mwrites r c f t (((i : Int) + d) % 2 ^ 64).toNat (((j : Int) + e) % 2 ^ 64).toNat rest
  | .begin1 :: rest => mwrites r c f t 0 j rest
  | .begin2 :: rest => mwrites r c f t i 0 rest
  | .nextRow :: rest => mwrites r c f t (i + 1) 0 rest
  | .nextColumn :: rest => mwrites r c f t 0 (j + 1) rest
  | .fill g :: rest => mwrites r c g t i j rest
  | .traverse u :: rest =>
    let q := inLines t.byRow (carry t.wrap (if t.byRow then c else r) (inLines t.byRow (i, j)))
    mwrites r c f u q.1 q.2 rest

/-- The item stands for these values; blocks have at least one element. -/
inductive MItem.Means : MItem R → MSpec R → Prop
  | val (x : R) : Means (.val x) (.vals [x])
  | vec {at_ : Nat → M R} (xs : List R) (h : ∀ k (hk : k < xs.length), at_ k = .ok xs[k]) : Means (.vec xs.length at_) (.vals xs)
  | mat {at_ : Nat → Nat → M R} {s1 s2 : Nat} (b : Nat → Nat → R) (h1 : 0 < s1) (h2 : 0 < s2) (h : ∀ k l, k < s1 → l < s2 → at_ k l = .ok (b k l)) : Means (.mat s1 s2 at_) (.block s1 s2 b)
  | moveTo (i j : Nat) : Means (.moveTo i j) (.moveTo i j)
  | move (d e : Int) : Means (.move d e) (.move d e)
  | begin1 : Means .begin1 .begin1
  | begin2 : Means .begin2 .begin2
  | nextRow : Means .nextRow .nextRow
  | nextColumn : Means .nextColumn .nextColumn
  | fill (f : Fill) : Means (.fill f) (.fill f)
  | traverse (t : Trav) : Means (.traverse t) (.traverse t)

end Ublas.Assigner
