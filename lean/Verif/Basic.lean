/-!
# Basic execution model

Outcome monad and memory primitives shared by every component model.

* `Fault` lists the ublas exceptions (include/boost/numeric/ublas/exception.hpp:25-199) plus two
  outcomes that are not exceptions: `ub` (undefined behaviour: an access outside an allocated array,
  an invalid iterator dereference, ...) and `diverge` (a loop that never ends).
* `dbg : Bool` is the build mode: `true` means BOOST_UBLAS_CHECK_ENABLE is on
  (include/boost/numeric/ublas/exception.hpp:216-243), `false` is a release build where
  BOOST_UBLAS_CHECK expands to nothing.
-/
namespace Ublas

/-- ublas exceptions, exception.hpp:25-199, plus `ub` and `diverge` (see the header comment). -/
inductive Fault
  | divideByZero | internalLogic | externalLogic | badArgument | badSize | badIndex
  | singular | nonReal | stdException | ub | diverge
  deriving DecidableEq, Repr

/-- Result of running a piece of ublas code. -/
abbrev M (α : Type _) := Except Fault α

instance {α : Type _} [DecidableEq α] : DecidableEq (M α) := fun a b => by
  cases a with
  | error e => cases b with
    | error f => exact decidable_of_iff (e = f) (by simp)
    | ok b => exact isFalse (by simp)
  | ok a => cases b with
    | error f => exact isFalse (by simp)
    | ok b => exact decidable_of_iff (a = b) (by simp)

/-- BOOST_UBLAS_CHECK (expression, e): exception.hpp:219, 234 (enabled) / 252 (disabled). -/
def check (dbg : Bool) (p : Prop) [Decidable p] (f : Fault) : M Unit :=
  if dbg = true ∧ ¬ p then .error f else .ok ()

/-- Read cell `i` of an array; models `data_[i]` of unbounded_array
(storage.hpp:232-240: BOOST_UBLAS_CHECK (i < size_, bad_index ()) then the raw access). -/
def rd {α : Type _} (dbg : Bool) (l : List α) (i : Nat) : M α :=
  match l[i]? with
  | some a => .ok a
  | none => .error (if dbg then .badIndex else .ub)

/-- Write cell `i` of an array; same source lines as `rd`. -/
def wr {α : Type _} (dbg : Bool) (l : List α) (i : Nat) (v : α) : M (List α) :=
  if i < l.length then .ok (l.set i v) else .error (if dbg then .badIndex else .ub)

/-- `for (k = 0; k != n; ++ k) s = f k s` with early exit on a fault. -/
def loop {σ : Type _} (f : Nat → σ → M σ) : Nat → σ → M σ
  | 0, s => .ok s
  | n + 1, s => loop f n s >>= f n

/-- `for (k = 0; k != n; ++ k) s = f k s` for a body that cannot fault. -/
def iter {σ : Type _} (f : Nat → σ → σ) : Nat → σ → σ
  | 0, s => s
  | n + 1, s => f n (iter f n s)

@[simp] theorem bind_ok {α β : Type _} (a : α) (f : α → M β) :
    ((Except.ok a : M α) >>= f) = f a := rfl
@[simp] theorem bind_error {α β : Type _} (e : Fault) (f : α → M β) :
    ((Except.error e : M α) >>= f) = .error e := rfl
@[simp] theorem pure_eq_ok {α : Type _} (a : α) : (pure a : M α) = .ok a := rfl
@[simp] theorem map_ok {α β : Type _} (a : α) (f : α → β) :
    (f <$> (Except.ok a : M α)) = .ok (f a) := rfl
@[simp] theorem map_error {α β : Type _} (e : Fault) (f : α → β) :
    (f <$> (Except.error e : M α)) = .error e := rfl

theorem check_true {dbg : Bool} {p : Prop} [Decidable p] {f : Fault} (h : p) :
    check dbg p f = .ok () := by simp [check, h]
@[simp] theorem check_True {dbg : Bool} {f : Fault} : check dbg True f = .ok () := by simp [check]
theorem check_dbg_false {p : Prop} [Decidable p] {f : Fault} (h : ¬ p) :
    check true p f = .error f := by simp [check, h]
@[simp] theorem check_release {p : Prop} [Decidable p] {f : Fault} :
    check false p f = .ok () := by simp [check]

theorem rd_ok {α : Type _} {dbg : Bool} {l : List α} {i : Nat} (h : i < l.length) :
    rd dbg l i = .ok l[i] := by simp [rd, h]
theorem rd_eq_ok {α : Type _} {dbg : Bool} {l : List α} {i : Nat} {v : α} :
    rd dbg l i = .ok v ↔ l[i]? = some v := by
  unfold rd; split <;> simp_all
theorem wr_ok {α : Type _} {dbg : Bool} {l : List α} {i : Nat} {v : α} (h : i < l.length) :
    wr dbg l i v = .ok (l.set i v) := by simp [wr, h]

/-- Invariant rule for `loop`. -/
theorem loop_inv {σ : Type _} {f : Nat → σ → M σ} {n : Nat} {s : σ} (I : Nat → σ → Prop)
    (h0 : I 0 s) (hs : ∀ k t, k < n → I k t → ∃ t', f k t = .ok t' ∧ I (k + 1) t') :
    ∃ t, loop f n s = .ok t ∧ I n t := by
  induction n with
  | zero => exact ⟨s, rfl, h0⟩
  | succ n ih =>
    obtain ⟨t, ht, hi⟩ := ih (fun k t hk => hs k t (by omega))
    obtain ⟨t', ht', hi'⟩ := hs n t (by omega) hi
    exact ⟨t', by simp [loop, ht, ht'], hi'⟩

/-- Invariant rule for `iter`. -/
theorem iter_inv {σ : Type _} {f : Nat → σ → σ} {n : Nat} {s : σ} (I : Nat → σ → Prop)
    (h0 : I 0 s) (hs : ∀ k t, k < n → I k t → I (k + 1) (f k t)) :
    I n (iter f n s) := by
  induction n with
  | zero => exact h0
  | succ n ih => exact hs n _ (by omega) (ih fun k t hk => hs k t (by omega))

end Ublas
