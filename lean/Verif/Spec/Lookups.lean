import Verif.Model.Lookups

/-! Look-ups of names: how many there are for a backend. -/

namespace Pound.Spec

open Pound

/-- The job is a look-up for the backend. -/
def LookupFor (b : Nat) (j : Job (Option Nat)) : Prop := j.data = some b

instance (b : Nat) (j : Job (Option Nat)) : Decidable (LookupFor b j) := inferInstanceAs (Decidable (_ = _))

/-- The number of look-ups that wait for their time, without those that were cancelled, and of those being made -/
def pending (s : LkSt) (b : Nat) : Nat :=
  (s.q.jobs.filter fun j => decide (LookupFor b j ∧ j.id ∉ s.q.cancels)).length + s.run.count b

/-- The backend is in use. -/
def LookedUp (s : LkSt) (b : Nat) : Prop := (s.be b).created = true ∧ (s.be b).disabled = false

/-- All steps of a history satisfy a condition on the state before the step. -/
def Along (P : LkSt → LkOp → Prop) : LkSt → List LkOp → Prop
  | _, [] => True
  | s, o :: t => P s o ∧ ∀ s', lkStep s o = some s' → Along P s' t

/-- The look-up does not end with a permanent failure. -/
def NoFailure : LkOp → Prop
  | .done _ a => a ≠ .failed
  | .enable _ a => a ≠ .failed
  | _ => True

/-- Backends are disabled or removed only after an answer was got for them, unless job number 0 is out of the way. -/
def NotTooEarly (s : LkSt) : LkOp → Prop
  | .disable b => (s.be b).jid ≠ 0 ∨ ∀ j ∈ s.q.jobs, j.id = 0 → j.data = none ∨ j.data = some b
  | .drop b => (s.be b).jid ≠ 0 ∨ ∀ j ∈ s.q.jobs, j.id = 0 → j.data = none ∨ j.data = some b
  | _ => True

/-- Backends are disabled or removed only when the look-up whose number is stored is waiting for its time, or when they are disabled; and the
timer thread gets to know of it in time. -/
def WhileWaiting (s : LkSt) : LkOp → Prop
  | .disable b => (s.be b).disabled = true ∨ ∃ j ∈ s.q.jobs, LookupFor b j ∧ j.id = (s.be b).jid ∧ j.id ∉ s.q.cancels
  | .drop b => (s.be b).disabled = true ∨ ∃ j ∈ s.q.jobs, LookupFor b j ∧ j.id = (s.be b).jid ∧ j.id ∉ s.q.cancels
  | .start => ∀ j r, s.q.jobs = j :: r → j.id ∉ s.q.cancels
  | _ => True

/-- The backend is not disabled or removed in this step. -/
def NotDisabling (b : Nat) : LkOp → Prop
  | .disable x => x ≠ b
  | .drop x => x ≠ b
  | _ => True

end Pound.Spec
