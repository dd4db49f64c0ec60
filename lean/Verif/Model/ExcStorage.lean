import Verif.Model.Storage
/-!
# unbounded_array when allocations and element operations throw (include/boost/numeric/ublas/storage.hpp:40-350)

The same functions as `Model/Storage.lean`, now with an allocator whose calls may throw `std::bad_alloc` and with elements whose construction or assignment may throw.  Which calls throw is decided by
an arbitrary environment: event number `k` fails when `allocFails k` (an allocation) or `elemFails k` (an element operation).  A throwing operation returns the state at that moment, so that the program
can catch the exception and go on.  A cell of a block holds `none` as long as no object has been constructed in it; destroying or reading such a cell is undefined behaviour.
Simplifications: the by-value parameters `init` (storage.hpp:143, 210) are copied before anything else happens, so a throwing copy changes nothing and is not an event; destructors do not throw.
-/
namespace Ublas.Exc
open Storage (UArr setVar)
variable {α β γ : Type}

/-- The state: events so far, the next fresh address, the live blocks and the named `unbounded_array` objects. Client histories: composes the operations cited in this file; no code of its own in /repo. -/
structure St (α : Type) where
  clock : Nat
  next : Nat
  blk : Nat → Option (List (Option α))
  var : Nat → Option UArr

/-- Outcome of an operation: normal, an exception that leaves the given state behind, or undefined behaviour. Exception machinery of the model; no code of its own in /repo. -/
inductive Res (α β : Type)
  | ok (b : β) (s : St α)
  | threw (s : St α)
  | ub

/-- Operations on the state. Exception machinery of the model; no code of its own in /repo. -/
def EM (α β : Type) := St α → Res α β

/-- Exception machinery of the model; no code of its own in /repo. -/
def EM.bind (m : EM α β) (f : β → EM α γ) : EM α γ := fun s =>
  match m s with
  | .ok b s' => f b s'
  | .threw s' => .threw s'
  | .ub => .ub

instance : Monad (EM α) where
  pure b := fun s => .ok b s
  bind := EM.bind

/-- The environment: which events fail; whether the element type has a trivial constructor / destructor (`detail::has_trivial_constructor`, `has_trivial_destructor`); a default constructed element; the
contents of fresh memory for types with trivial constructors. Which loops are skipped: storage.hpp:75, 126, 173, 189; which events fail is the environment's choice. -/
structure Env (α : Type) where
  allocFails : Nat → Bool
  elemFails : Nat → Bool
  trivC : Bool
  trivD : Bool
  dflt : α
  junk : Nat → Nat → α

/-- `for (k = 0; k < n; ++ k) f (k)`. A client's loop; the iterator operations are cited at their definitions. -/
def loopE (f : Nat → EM α Unit) : Nat → EM α Unit
  | 0 => pure ()
  | n + 1 => do
    loopE f n
    f n

/-- `if (c) m;`.  Exception machinery of the model; no code of its own in /repo. -/
def whenE (c : Prop) [Decidable c] (m : EM α Unit) : EM α Unit := if c then m else pure ()

/-- Undefined behaviour. Exception machinery of the model; no code of its own in /repo. -/
def ubE : EM α β := fun _ => .ub

/-- `alloc_.allocate (n)`: storage.hpp:69, 91, 102, 147. -/
def allocate (E : Env α) (n : Nat) : EM α Nat := fun s =>
  if E.allocFails s.clock then .threw { s with clock := s.clock + 1 }
  else .ok s.next ⟨s.clock + 1, s.next + 1, setVar s.blk s.next (some ((List.range n).map fun k => if E.trivC then some (E.junk s.clock k) else none)), s.var⟩

/-- `boost::allocator_construct (alloc_, p + i, v)`: storage.hpp:80, 153, 159, 163, 178. -/
def construct (E : Env α) (p i : Nat) (v : α) : EM α Unit := fun s =>
  if E.elemFails s.clock then .threw { s with clock := s.clock + 1 }
  else match s.blk p with
    | some b => if i < b.length then .ok () { s with clock := s.clock + 1, blk := setVar s.blk p (some (b.set i (some v))) } else .ub
    | none => .ub

/-- Reading the element `* (p + i)`. The element read in storage.hpp:104, 157-171. -/
def read (p : Option Nat) (i : Nat) : EM α α := fun s =>
  match p with
  | none => .ub
  | some p => match s.blk p with
    | none => .ub
    | some b => match b[i]? with
      | some (some v) => .ok v s
      | _ => .ub

/-- Copy assignment to the element `* (p + i)`. The element type's `operator =`; called from storage.hpp:157-171, 215-230. -/
def assignCell (E : Env α) (p : Option Nat) (i : Nat) (v : α) : EM α Unit := fun s =>
  match p with
  | none => .ub
  | some p => match s.blk p with
    | none => .ub
    | some b => match b[i]? with
      | some (some _) => if E.elemFails s.clock then .threw { s with clock := s.clock + 1 } else .ok () { s with clock := s.clock + 1, blk := setVar s.blk p (some (b.set i (some v))) }
      | _ => .ub

/-- `boost::allocator_destroy`, `iterator_destroy`: storage.hpp:133, 194. -/
def destroyCell (p i : Nat) : EM α Unit := fun s =>
  match s.blk p with
  | none => .ub
  | some b => match b[i]? with
    | some (some _) => .ok () { s with blk := setVar s.blk p (some (b.set i none)) }
    | _ => .ub

/-- `alloc_.deallocate (p, n)`: storage.hpp:136, 196. -/
def deallocate (p n : Nat) : EM α Unit := fun s =>
  match s.blk p with
  | none => .ub
  | some b => if b.length = n then .ok () { s with blk := setVar s.blk p none } else .ub

/-- Destroy the `n` elements unless that is trivial, and free the block: storage.hpp:126-136, 189-196. -/
def release (E : Env α) (p : Option Nat) (n : Nat) : EM α Unit :=
  match p with
  | none => ubE
  | some p => do
    whenE (¬ E.trivD = true) (loopE (destroyCell p) n)
    deallocate p n

/-- The live object named `x`. Client histories: composes the operations cited in this file; no code of its own in /repo. -/
def obj (x : Nat) : EM α UArr := fun s =>
  match s.var x with
  | some a => .ok a s
  | none => .ub

/-- Client histories: composes the operations cited in this file; no code of its own in /repo. -/
def setObj (x : Nat) (a : Option UArr) : EM α Unit := fun s => .ok () { s with var := setVar s.var x a }

/-- `std::uninitialized_fill`, `std::uninitialized_copy`: on an exception the elements constructed so far are destroyed. C++ standard library, not code of /repo. -/
def uninit (E : Env α) (p : Nat) (f : Nat → EM α α) : Nat → EM α Unit
  | 0 => pure ()
  | n + 1 => do
    uninit E p f n
    let v ← f n
    fun s => match construct E p n v s with
      | .threw s' => (match loopE (destroyCell p) n s' with
        | .ok _ s'' => .threw s''
        | r => r)
      | r => r

/-- `for (di = data_ + from; di != data_ + from + n; ++ di) construct (di, v)`: storage.hpp:162-164, 177-178, and 79-80. -/
def fillTo (E : Env α) (v : α) (d off n : Nat) : EM α Unit :=
  loopE (fun k => do
    let v ← pure v
    construct E d (off + k) v) n

/-- `unbounded_array x (n)`: storage.hpp:66-85.  When the constructor throws the object does not come to life and its destructor does not run. -/
def ctor (E : Env α) (x n : Nat) : EM α Unit :=
  if n ≠ 0 then do
    let p ← allocate E n
    whenE (¬ E.trivC = true) (fillTo E E.dflt p 0 n)
    setObj x (some ⟨n, some p⟩)
  else setObj x (some ⟨n, none⟩)

/-- `unbounded_array x (n, v)`: storage.hpp:88-96. -/
def ctorInit (E : Env α) (x n : Nat) (v : α) : EM α Unit :=
  if n ≠ 0 then do
    let p ← allocate E n
    uninit E p (fun _ => pure v) n
    setObj x (some ⟨n, some p⟩)
  else setObj x (some ⟨n, none⟩)

/-- `unbounded_array x (y)`: storage.hpp:98-107. -/
def copyCtor (E : Env α) (x y : Nat) : EM α Unit := do
  let c ← obj y
  if c.size ≠ 0 then do
    let p ← allocate E c.size
    uninit E p (fun k => read c.ptr k) c.size
    setObj x (some ⟨c.size, some p⟩)
  else setObj x (some ⟨c.size, none⟩)

/-- `unbounded_array x (std::move (y))`: storage.hpp:110-116. -/
def moveCtor (x y : Nat) : EM α Unit := do
  let c ← obj y
  setObj x (some c)
  setObj y (some ⟨0, none⟩)

/-- `x.~unbounded_array ()`: storage.hpp:119-138. -/
def dtor (E : Env α) (x : Nat) : EM α Unit := do
  let a ← obj x
  whenE (a.size ≠ 0) (release E a.ptr a.size)
  setObj x none

/-- `for (; …; ++ di, ++ si) construct (di, * si)`: storage.hpp:152-155, 158-161. -/
def copyTo (E : Env α) (src : Option Nat) (d n : Nat) : EM α Unit :=
  loopE (fun k => do
    let v ← read src k
    construct E d (0 + k) v) n

/-- The contents of the new block: storage.hpp:148-180. -/
def build (E : Env α) (a : UArr) (d n : Nat) (init : α) (preserve : Bool) : EM α Unit :=
  if preserve then
    if n < a.size then copyTo E a.ptr d n
    else do
      copyTo E a.ptr d a.size
      fillTo E init d a.size (n - a.size)
  else whenE (¬ E.trivC = true) (fillTo E E.dflt d 0 n)

/-- `x.resize_internal (n, init, preserve)`: storage.hpp:143-203.  `data_` is overwritten before the elements are constructed (line 147), `size_` at the end (line 201). -/
def resizeInternal (E : Env α) (x n : Nat) (init : α) (preserve : Bool) : EM α Unit := do
  let a ← obj x
  whenE (n ≠ a.size) do
    whenE (n ≠ 0) do
      let d ← allocate E n
      setObj x (some ⟨a.size, some d⟩)
      build E a d n init preserve
    whenE (a.size ≠ 0) (release E a.ptr a.size)
    let b ← obj x
    setObj x (some ⟨n, if n = 0 then none else b.ptr⟩)

/-- `x = y`: storage.hpp:244-250. -/
def assign (E : Env α) (x y : Nat) : EM α Unit := do
  let c ← obj y
  let _ ← obj x
  whenE (x ≠ y) do
    resizeInternal E x c.size E.dflt false
    let a ← obj x
    let c ← obj y
    loopE (fun k => do
      let v ← read c.ptr k
      assignCell E a.ptr k v) c.size

/-- `x.swap (y)`: storage.hpp:258-265. -/
def swap (x y : Nat) : EM α Unit := do
  let a ← obj x
  let b ← obj y
  whenE (x ≠ y) do
    setObj x (some b)
    setObj y (some a)

/-- `x [i] = v`: storage.hpp:237-240 (release build). -/
def store (E : Env α) (x i : Nat) (v : α) : EM α Unit := do
  let a ← obj x
  assignCell E a.ptr i v

/-- One operation on named arrays. Client histories: composes the operations cited in this file; no code of its own in /repo. -/
def step (E : Env α) : Storage.Op α → EM α Unit
  | .ctor x n => ctor E x n
  | .ctorInit x n v => ctorInit E x n v
  | .copyCtor x y => copyCtor E x y
  | .moveCtor x y => moveCtor x y
  | .dtor x => dtor E x
  | .resize x n => resizeInternal E x n E.dflt false
  | .resizeInit x n v => resizeInternal E x n v true
  | .assign x y => assign E x y
  | .swap x y => swap x y
  | .store x i v => store E x i v

end Ublas.Exc
