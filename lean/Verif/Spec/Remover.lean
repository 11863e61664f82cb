import Verif.Model.Remover

/-! Release of backends -/

namespace Pound.Spec

open Pound

/-- States of the program -/
def RmReach (s : RmSt) : Prop := ∃ ops, rmRun .init ops = some s

/-- No remover has anything to do: all wait for a signal, or have ended. -/
def RmQuiet (s : RmSt) : Prop := ∀ t ∈ s.thr, t = .waiting ∨ t = .done

/-- The last reference to a backend is dropped when the only remover at work has passed it, and nobody waits for the signal. -/
def Unheard (s : RmSt) : RmOp → Prop
  | .put b _ => (s.be b).ref = 1 ∧ (∃ r, .scan r ∈ s.thr ∧ b ∉ r) ∧ RmThr.waiting ∉ s.thr ∧ RmThr.ready ∉ s.thr
  | _ => False

/-- Backends are removed without a remover being started. -/
def NotStarted : RmOp → Prop
  | .sweep _ start => start = false
  | _ => False

/-- A history from `s` on in which neither happens -/
inductive Heard : RmSt → List RmOp → Prop
  | nil (s) : Heard s []
  | cons {s o t} : ¬ Unheard s o → ¬ NotStarted o → (∀ s', rmStep s o = some s' → Heard s' t) → Heard s (o :: t)

end Pound.Spec
