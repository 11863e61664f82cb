import Verif.Model.Time

/-! What the timer promises, in terms of the jobs handed to it. -/

namespace Pound.Spec

/-- Time `a` is before time `b`. -/
def Before (a b : TS) : Prop := a.sec < b.sec ∨ a.sec = b.sec ∧ a.nsec < b.nsec

/-- Time `a` is not after time `b`. -/
def NotAfter (a b : TS) : Prop := a.sec < b.sec ∨ a.sec = b.sec ∧ a.nsec ≤ b.nsec

/-- Among jobs given by due time and number of submission, `a` comes before `b`: it is due
earlier, or at the same time and was submitted earlier. -/
def Earlier (a b : TS × Nat) : Prop := Before a.1 b.1 ∨ a.1 = b.1 ∧ a.2 < b.2

end Pound.Spec
