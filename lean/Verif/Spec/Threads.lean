import Verif.Model.Threads
/-! # What threads may expect of a shared container -/
namespace Ublas
namespace Threads
variable {ι R A : Type}

/-- What a client computes on a mathematical function `f` from indices to values, and the function it leaves. -/
def Client.sem [DecidableEq ι] (f : ι → R) : Client ι R A → A × (ι → R)
  | .done a => (a, f)
  | .get i k => (k (f i)).sem f
  | .set i v k => k.sem (fun j => if j = i then v else f j)

/-- The client reads only elements in `rdable` and writes only elements in `wrable`. -/
def Client.Keeps [DecidableEq ι] (rdable wrable : ι → Prop) (f : ι → R) : Client ι R A → Prop
  | .done _ => True
  | .get i k => rdable i ∧ (k (f i)).Keeps rdable wrable f
  | .set i v k => wrable i ∧ k.Keeps rdable wrable (fun j => if j = i then v else f j)

/-- The threads can run in any order: no fault, no data race, the memory stays as it is, every thread that gets enough steps finishes, and a thread that has finished has the answer `ans`. -/
def ReadersFine (th : Nat → Th R A) (m : TMem R) (ans : Nat → A) : Prop :=
  ∃ N : Nat → Nat, ∀ sched, ∃ c, execute sched th m = .ok c ∧ RaceFree c.log ∧ c.mem.elt = m.elt ∧ (∀ a, c.mem.nat a = m.nat a) ∧
    (∀ t, N t ≤ sched.count t → c.th t = .ret (ans t)) ∧ ∀ t b, c.th t = .ret b → b = ans t

end Threads
end Ublas
