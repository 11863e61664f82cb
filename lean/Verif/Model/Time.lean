import Verif.Model.Basic

/-! Times (`struct timespec`). -/

namespace Pound

/-- `struct timespec`. -/
structure TS where
  sec : Int
  nsec : Int
deriving DecidableEq, Repr

/-- `timespec_cmp` (/repo/src/pound.h:279-294). -/
def TS.cmp (a b : TS) : Int :=
  if a.sec < b.sec then -1
  else if a.sec > b.sec then 1
  else if a.nsec < b.nsec then -1
  else if a.nsec > b.nsec then 1
  else 0

/-- `ts.tv_sec += n`. -/
def TS.addSec (a : TS) (n : Int) : TS := { a with sec := a.sec + n }

end Pound
