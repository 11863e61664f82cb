import Verif.Model.Backend

/-! What balancing is about, said without the code of the balancers. -/

namespace Pound.Spec

/-- A backend that may be given work: enabled, and up. A matrix (the template of dynamic backends) is
never up; a regular one is if the last attempt to reach it succeeded; the others (redirects and so on)
always are. -/
def Active (b : Be) : Prop :=
  b.disabled = false ∧ b.type ≠ .matrix ∧ (b.type = .regular → b.alive = true)

instance (b : Be) : Decidable (Active b) := by unfold Active; infer_instance

/-- A backend that is up, enabled or not. -/
def Up (b : Be) : Prop := b.type ≠ .matrix ∧ (b.type = .regular → b.alive = true)

instance (b : Be) : Decidable (Up b) := by unfold Up; infer_instance

/-- The active backends of a list. -/
def actives (l : List Be) : List Be := l.filter fun b => decide (Active b)

/-- Their priorities added up. -/
def prioSum (l : List Be) : Nat := ((actives l).map (·.prio)).sum

/-- The greatest of their priorities. -/
def prioMax (l : List Be) : Nat := ((actives l).map (·.prio)).foldr max 0

/-- The numbers a balancer keeps are those of its active backends. -/
structure Totals (bal : Bal) : Prop where
  count : bal.actNum = (actives bal.backends).length
  sum : bal.algo = .random → bal.sumPri = prioSum bal.backends
  max : bal.algo = .iwrr → bal.maxPri = prioMax bal.backends

/-- The position of a weighted round robin is one in the list, or not set. -/
def CursorOk (bal : Bal) : Prop := ∀ i, bal.cur = some i → i < bal.backends.length

/-- Balancers as the configuration makes them: backends are distinct; no balancer is empty; priorities are
from 1 to 65535 and their sum is within the range of `long`. -/
structure Configured (bals : List Bal) : Prop where
  distinct : ((bals.flatMap (·.backends)).map (·.id)).Nodup
  nonempty : ∀ bal ∈ bals, bal.backends ≠ []
  prios : ∀ bal ∈ bals, ∀ b ∈ bal.backends, 1 ≤ b.prio ∧ b.prio ≤ 65535
  bound : ∀ bal ∈ bals, (bal.backends.map (·.prio)).sum < 2 ^ 63

/-- What is done to a backend: its state is set by the administrator or because it could not be reached;
a dead one is probed. -/
inductive BeEv where
  | disable (id : Nat)
  | enable (id : Nat)
  | kill (id : Nat)
  | probe (id : Nat) (up : Bool)
deriving DecidableEq, Repr

/-- Whether a regular backend is disabled and alive after a history, from what it was at first; the latest event
comes last. -/
def stateAfter (id : Nat) : List BeEv → Bool × Bool → Bool × Bool
  | [], s => s
  | .disable i :: h, s => stateAfter id h (if i = id then (true, s.2) else s)
  | .enable i :: h, s => stateAfter id h (if i = id then (false, s.2) else s)
  | .kill i :: h, s => stateAfter id h (if i = id then (s.1, false) else s)
  | .probe i up :: h, s => stateAfter id h (if i = id then (s.1, s.2 || up) else s)

/-- Random numbers from which one can be used to choose among `sum` values: one that is not among
the first `2 ^ 64 mod sum`. -/
def Usable (sum : Nat) (rs : List Nat) : Prop := sum < 2 ∨ ∃ r ∈ rs, 2 ^ 64 % sum ≤ r

/-- The name of a cookie and `=`, then its value: the value if the name is the given one (letter
case ignored). -/
def cookieValue (name item : Bytes) : Option Bytes :=
  if item.length > name.length ∧ ciEq (item.take name.length) name ∧ (item.drop name.length).head? = some ch%'=' then
    some (item.drop (name.length + 1))
  else none

/-- The pieces of a string between semicolons. -/
def semis : Bytes → List Bytes
  | [] => [[]]
  | c :: t =>
    if c = ch%';' then [] :: semis t
    else
      match semis t with
      | [] => [[c]]
      | x :: r => (c :: x) :: r

/-- The value of the first cookie with the given name in a `Cookie` header. -/
def cookieOf (name v : Bytes) : Option Bytes :=
  (semis v).findSome? fun item => cookieValue name (item.dropWhile fun c => c == 32 || c == 9)

/-- The credentials in an `Authorization` header of the basic scheme. -/
def basicCredentials (v : Bytes) : Option Bytes :=
  if ciEq (v.take 5) b!"Basic" ∧ ((v.drop 5).head?.any isSpace) then some ((v.drop 5).dropWhile isSpace) else none

/-- What identifies the session a request belongs to: nothing, a cookie, the client's address, a
query parameter, what follows the last semicolon in the path, a header, credentials. `param` is the query parameter `sid`, `hdr` gives the
first value of a header. -/
def sessionKey (sid addr path : Bytes) (param : Option (Option Bytes)) (hdr : Bytes → Option Bytes) : SessType → Option Bytes
  | .none => none
  | .cookie => (hdr b!"Cookie").bind (cookieOf sid)
  | .ip => some addr
  | .url => param.join
  | .parm => if 1 < (semis path).length then (semis path).getLast? else none
  | .header => hdr sid
  | .basic => (hdr b!"Authorization").bind basicCredentials

end Pound.Spec

namespace Pound
open Spec

/-- The list in which each active backend stands as often as its priority says. -/
def shares (bs : List Be) : List Be := (actives bs).flatMap fun b => List.replicate b.prio b

/-- Weighted round robin over several backends only in the last balancer. -/
def SafeOrder : List Bal → Prop
  | [] => True
  | bal :: t => (t ≠ [] → bal.algo = .iwrr → bal.backends.length < 2) ∧ SafeOrder t

/-- A balancer in a state that occurs when the priorities are positive. -/
structure Sane (bal : Bal) : Prop where
  some : bal.backends ≠ []
  totals : Totals bal
  cursor : CursorOk bal
  prio : ∀ b ∈ bal.backends, Active b → 1 ≤ b.prio
  bound : prioSum bal.backends ≤ 2 ^ 63 - 1

/-- The random numbers suffice for the selection in each balancer. -/
def UsableAll : (Nat → List Nat) → List Bal → Prop
  | _, [] => True
  | rnd, bal :: t => (bal.algo = .random → Usable (prioSum bal.backends) (rnd 0)) ∧ UsableAll (fun i => rnd (i + 1)) t

/-- What always holds for the balancers of a service. -/
structure BalsOk (bals : List Bal) : Prop where
  cfg : Configured bals
  totals : ∀ bal ∈ bals, Totals bal
  cursor : ∀ bal ∈ bals, CursorOk bal

/-- Random numbers that are enough for every selection: for each there is one that is not small. -/
def Draws (bals : List Bal) (rnd : Nat → List Nat) : Prop :=
  ∀ i, ∃ r ∈ rnd i, ∀ bal ∈ bals, (bal.backends.map (·.prio)).sum ≤ r + 1

end Pound
