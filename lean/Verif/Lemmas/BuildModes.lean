import Verif.Spec.BuildModes
/-! Rules for `Agrees`, and the tactic `agree` that applies them along the text of a function. -/
namespace Ublas
variable {α β γ σ : Type _}

theorem Agrees.rfl {x : M β} : Agrees x x := fun _ h => h
theorem Agrees.trans {x y z : M β} (h : Agrees x y) (h' : Agrees y z) : Agrees x z := fun r e => h' r (h r e)
theorem Agrees.bind {x y : M β} {f g : β → M γ} (h : Agrees x y) (hf : ∀ a, Agrees (f a) (g a)) : Agrees (x >>= f) (y >>= g) := by
  intro r e
  cases hx : x with
  | error t => rw [hx] at e; cases e
  | ok a => rw [hx, bind_ok] at e; rw [h a hx, bind_ok]; exact hf a r e
theorem Agrees.map {x y : M β} {f : β → γ} (h : Agrees x y) : Agrees (f <$> x) (f <$> y) := by
  intro r e
  cases hx : x with
  | error t => rw [hx] at e; cases e
  | ok a => rw [hx] at e; rw [h a hx]; exact e
theorem Agrees.error {e : Fault} {y : M β} : Agrees (.error e) y := fun r h => by cases h
/-- A check that is not compiled in. -/
theorem Agrees.unit {x : M Unit} : Agrees x (.ok ()) := fun _ _ => by rfl
theorem Agrees.check {p : Prop} [Decidable p] {e : Fault} : Agrees (check true p e) (check false p e) := fun _ _ => by simp
theorem Agrees.rd {d d' : Bool} {l : List β} {i : Nat} : Agrees (rd d l i) (rd d' l i) := fun r h => by rw [rd_eq_ok] at h ⊢; exact h
theorem Agrees.wr {d d' : Bool} {l : List β} {i : Nat} {x : β} : Agrees (wr d l i x) (wr d' l i x) := fun r h => by
  unfold Ublas.wr at h ⊢; split at h
  · rename_i hl; rw [if_pos hl]; exact h
  · cases h
theorem Agrees.ite {c : Prop} [Decidable c] {x x' y y' : M β} (h : c → Agrees x x') (h' : ¬ c → Agrees y y') : Agrees (if c then x else y) (if c then x' else y') := by
  by_cases hc : c
  · rw [if_pos hc, if_pos hc]; exact h hc
  · rw [if_neg hc, if_neg hc]; exact h' hc
theorem Agrees.loop {f g : Nat → σ → M σ} (h : ∀ k s, Agrees (f k s) (g k s)) (n : Nat) (s : σ) : Agrees (loop f n s) (loop g n s) := by
  induction n with
  | zero => exact Agrees.rfl
  | succ n ih => exact ih.bind fun t => h n t
theorem Agrees.foldlM {f g : σ → β → M σ} (h : ∀ s b, Agrees (f s b) (g s b)) (l : List β) : ∀ s, Agrees (l.foldlM f s) (l.foldlM g s) := by
  induction l with
  | nil => intro s; exact Agrees.rfl
  | cons a l ih => intro s; simp only [List.foldlM_cons]; exact (h s a).bind fun t => ih t
theorem Agrees.mapM {f g : β → M γ} (h : ∀ b, Agrees (f b) (g b)) (l : List β) : Agrees (l.mapM f) (l.mapM g) := by
  induction l with
  | nil => exact Agrees.rfl
  | cons a l ih => simp only [List.mapM_cons]; exact (h a).bind fun b => ih.bind fun t => Agrees.rfl

/-- `Agrees` found by instance search: one instance per function. -/
class AgreesI (x y : M β) : Prop where
  h : Agrees x y

/-- One rule; extended with `macro_rules` as functions are done. -/
syntax "agree1" : tactic
macro_rules | `(tactic| agree1) => `(tactic| with_reducible assumption)
macro_rules | `(tactic| agree1) => `(tactic| (with_reducible apply_assumption))
macro_rules | `(tactic| agree1) => `(tactic| (split <;> (try simp only [*])))
macro_rules | `(tactic| agree1) => `(tactic| (simp only [true_and, false_and, if_true, if_false, Bool.false_eq_true, ↓reduceIte]))
macro_rules | `(tactic| agree1) => `(tactic| (with_reducible refine Agrees.ite (fun _ => ?_) (fun _ => ?_)))
macro_rules | `(tactic| agree1) => `(tactic| (with_reducible refine Agrees.mapM (fun _ => ?_) _))
macro_rules | `(tactic| agree1) => `(tactic| (with_reducible refine Agrees.foldlM (fun _ _ => ?_) _ _))
macro_rules | `(tactic| agree1) => `(tactic| (with_reducible refine Agrees.loop (fun _ _ => ?_) _ _))
macro_rules | `(tactic| agree1) => `(tactic| (with_reducible refine Agrees.bind ?_ (fun _ => ?_)))
macro_rules | `(tactic| agree1) => `(tactic| (with_reducible refine Agrees.map ?_))
macro_rules | `(tactic| agree1) => `(tactic| with_reducible exact AgreesI.h)
macro_rules | `(tactic| agree1) => `(tactic| with_reducible exact Agrees.unit)
macro_rules | `(tactic| agree1) => `(tactic| with_reducible exact Agrees.check)
macro_rules | `(tactic| agree1) => `(tactic| with_reducible exact Agrees.wr)
macro_rules | `(tactic| agree1) => `(tactic| with_reducible exact Agrees.rd)
macro_rules | `(tactic| agree1) => `(tactic| with_reducible exact Agrees.error)
macro_rules | `(tactic| agree1) => `(tactic| with_reducible exact Agrees.rfl)
/-- All rules until nothing is left. -/
macro "agree" : tactic => `(tactic| repeat' (first | agree1 | (dsimp only; agree1)))

end Ublas
