import Verif.Model.Control
import Verif.Spec.Acl

/-! Control requests: which object a path names, and what may change. -/

namespace Pound.Spec

open Pound

/-- The text is a decimal number. -/
def IsIndex (s : Bytes) (n : Nat) : Prop := s ≠ [] ∧ (∀ c ∈ s, 48 ≤ c.toNat ∧ c.toNat ≤ 57) ∧ n = decimal s

/-- One segment of a path: neither '/' nor '?'.  Not empty, and no number with a sign or space in front. -/
structure Segment (s : Bytes) : Prop where
  nonempty : s ≠ []
  plain : ∀ c ∈ s, c ≠ ch%'/' ∧ c ≠ ch%'?'
  unsigned : ∀ sp sg ds n, s = sp ++ sg ++ ds → (∀ c ∈ sp, isSpace c = true) → (sg = [] ∨ sg = b!"-" ∨ sg = b!"+") → IsIndex ds n →
    sp = [] ∧ sg = []

/-- A segment designates an object of a list: by its position, or the first one of that name. -/
inductive Designates (names : List (Option Bytes)) (s : Bytes) : Nat → Prop
  | index {i} : IsIndex s i → i < names.length → Designates names s i
  | name {i} : (∀ n, ¬ IsIndex s n) → names[i]? = some (some s) → (∀ j < i, names[j]? ≠ some (some s)) → Designates names s i

/-- The services of a listener or of the global level -/
def servicesOf (c : Conf) : Option Nat → List CSvc
  | none => c.services
  | some i => ((c.listeners[i]?).map (·.services)).getD []

/-- The object named by the segments LISTENER, SERVICE, BACKEND of a path; "-" is the global level. -/
inductive Resolves (c : Conf) : List Bytes → Obj → Prop
  | global : Resolves c [b!"-"] (.listener none)
  | listener {s i} : s ≠ b!"-" → Designates (c.listeners.map (·.name)) s i → Resolves c [s] (.listener (some i))
  | service {a l s i} : Resolves c [a] (.listener l) → Designates ((servicesOf c l).map (·.name)) s i → Resolves c [a, s] (.service l i)
  | backend {a s l i sv b n be} : Resolves c [a, s] (.service l i) → (servicesOf c l)[i]? = some sv → IsIndex b n →
      sv.balancers.flatten[n]? = some be → Resolves c [a, s, b] (.backend l i be.ptr)

/-- "/A/B/C" -/
def slashes (segs : List Bytes) : Bytes := segs.flatMap fun s => ch%'/' :: s

/-- Objects of an acceptable size, whose backends are distinct -/
structure GoodConf (c : Conf) : Prop where
  listeners : c.listeners.length ≤ 2 ^ 31
  services : ∀ l, (servicesOf c l).length ≤ 2 ^ 31
  distinct : ∀ l, ∀ s ∈ servicesOf c l, (s.balancers.flatten.map (·.ptr)).Nodup ∧ s.balancers.flatten.length ≤ 2 ^ 31

/-- The object serves the control interface. -/
def ServesControl (c : Conf) : Obj → Prop
  | .listener none => False
  | .listener (some k) => ∃ l s b, c.listeners[k]? = some l ∧ s ∈ l.services ∧ b ∈ s.balancers.flatten ∧ b.kind = .control
  | .service l i => ∃ s b, (servicesOf c l)[i]? = some s ∧ b ∈ s.balancers.flatten ∧ b.kind = .control
  | .backend l i p => ∃ s b, (servicesOf c l)[i]? = some s ∧ b ∈ s.balancers.flatten ∧ b.ptr = p ∧ b.kind = .control

/-- The i-th service of a level after the flag of object `o` was set -/
def flagSvc (dis : Bool) (o : Obj) (l : Option Nat) (i : Nat) (s : CSvc) : CSvc :=
  { s with
    disabled := if o = .service l i then dis else s.disabled
    balancers := s.balancers.map fun bl => bl.map fun b => { b with disabled := if o = .backend l i b.ptr then dis else b.disabled } }

/-- The flag of one object is set, everything else is left as it was. -/
def setFlag (dis : Bool) (o : Obj) (c : Conf) : Conf :=
  { listeners := c.listeners.mapIdx fun k l =>
      { l with disabled := if o = .listener (some k) then dis else l.disabled, services := l.services.mapIdx (flagSvc dis o (some k)) }
    services := c.services.mapIdx (flagSvc dis o none) }

/-- The sessions of one service are changed, everything else is left as it was. -/
def sessSvc (l : Option Nat) (i : Nat) (f : CSvc → SessTab) (l' : Option Nat) (i' : Nat) (s : CSvc) : CSvc :=
  { s with sessions := if l' = l ∧ i' = i then f s else s.sessions }

def onSessions (l : Option Nat) (i : Nat) (f : CSvc → SessTab) (c : Conf) : Conf :=
  { listeners := c.listeners.mapIdx fun k l' => { l' with services := l'.services.mapIdx (sessSvc l i f (some k)) }
    services := c.services.mapIdx (sessSvc l i f none) }

/-- The flag of an object -/
def flagOf (c : Conf) : Obj → Option Bool
  | .listener none => none
  | .listener (some k) => (c.listeners[k]?).map (·.disabled)
  | .service l i => ((servicesOf c l)[i]?).map (·.disabled)
  | .backend l i p => ((servicesOf c l)[i]?).bind fun s => (s.balancers.flatten.find? (·.ptr == p)).map (·.disabled)

/-- The endpoint's URI is a prefix of the path that ends on the boundary of a segment. -/
def Covers (uri path : Bytes) : Prop :=
  ∃ r, path = uri ++ r ∧ ∀ c, r.head? = some c → c = ch%'/' ∨ c = ch%'?'

/-- The value of an attribute of an object (objects have each attribute once). -/
def member {D} (v : JVal D) (k : Bytes) : Option (JVal D) :=
  match v with
  | .obj _ l => (l.find? fun p => p.1 == k).map (·.2)
  | _ => none

end Pound.Spec
