import Verif.Model.Basic

/-!
Data of backends and balancers (/repo/src/pound.h), without any function on them.
-/

namespace Pound

/-- `be_type` as far as the aliveness check looks at it (/repo/src/pound.h:459-470). -/
inductive BeType where
  | regular
  | matrix
  | other
deriving DecidableEq, Repr

/-- BACKEND (/repo/src/pound.h:543-577). -/
structure Be where
  id : Nat
  type : BeType
  prio : Nat
  disabled : Bool
  alive : Bool
deriving DecidableEq, Repr

/-- BALANCER_ALGO (/repo/src/pound.h:758-762). -/
inductive Algo where
  | random
  | iwrr
deriving DecidableEq, Repr

/-- BALANCER (/repo/src/pound.h:784-796). The position `cur` in the list stands for the
pointer; `none` for NULL. -/
structure Bal where
  algo : Algo
  weight : Int
  actNum : Nat
  backends : List Be
  sumPri : Nat
  round : Nat
  maxPri : Nat
  cur : Option Nat
deriving DecidableEq, Repr

/-- BE_DISABLE, BE_ENABLE, BE_KILL (/repo/src/pound.h:1060-1062). -/
inductive DisableMode where
  | disable
  | enable
  | kill
deriving DecidableEq, Repr

/-- SESS_TYPE (/repo/src/pound.h:447-457). -/
inductive SessType where
  | none | ip | cookie | url | parm | header | basic
deriving DecidableEq, Repr

end Pound
