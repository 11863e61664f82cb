import Verif.Spec.Jobs

/-! Session tables as maps from keys to backends with expiry times. -/

namespace Pound.Spec

/-- Operations on a session table; a backend is a number, the times are those of the operation. -/
inductive SessEv where
  | add (t : TS) (key : Bytes) (be : Nat)
  | find (t : TS) (key : Bytes)
  | removeKey (key : Bytes)
  | removeBe (be : Nat)
  | expire (upTo : TS)

/-- The backend associated with a key and the time the association ends, after a history of
operations, the latest operation first. -/
def sessionOf (ttl : Nat) (key : Bytes) : List SessEv → Option (Nat × TS)
  | [] => none
  | .add t k b :: h => if k = key then some (b, t.addSec ttl) else sessionOf ttl key h
  | .find t k :: h =>
    if k = key then (sessionOf ttl key h).map fun s => (s.1, t.addSec ttl) else sessionOf ttl key h
  | .removeKey k :: h => if k = key then none else sessionOf ttl key h
  | .removeBe b :: h => (sessionOf ttl key h).filter fun s => s.1 ≠ b
  | .expire u :: h => (sessionOf ttl key h).filter fun s => !(decide (s.2.sec < u.sec) || decide (s.2.sec = u.sec) && decide (s.2.nsec ≤ u.nsec))

/-- The times at which sessions were added or looked up do not decrease (latest first). -/
inductive ClockOk : List SessEv → TS → Prop
  | nil {t} : ClockOk [] t
  | add {h t t' k b} : ClockOk h t → NotAfter t t' → ClockOk (.add t' k b :: h) t'
  | find {h t t' k} : ClockOk h t → NotAfter t t' → ClockOk (.find t' k :: h) t'
  | removeKey {h t k} : ClockOk h t → ClockOk (.removeKey k :: h) t
  | removeBe {h t b} : ClockOk h t → ClockOk (.removeBe b :: h) t
  | expire {h t u} : ClockOk h t → ClockOk (.expire u :: h) t

end Pound.Spec
