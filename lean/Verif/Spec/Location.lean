import Verif.Model.Location
import Verif.Spec.Acl

/-!
What RewriteLocation is for: /repo/doc/pound.texi:3734-3759.
-/

namespace Pound.Spec

/-- An absolute URL with scheme http or https -/
structure AbsUrl (l scheme auth path : Bytes) : Prop where
  text : l = scheme ++ b!"://" ++ auth ++ path
  http : ciEq scheme b!"http" = true ∨ ciEq scheme b!"https" = true
  auth : auth ≠ [] ∧ ch%'/' ∉ auth
  path : path = [] ∨ path.head? = some ch%'/'

/-- Host name and port of a URL -/
inductive HostPort (scheme : Bytes) : Bytes → Bytes → Nat → Prop where
  | http {h : Bytes} : ch%':' ∉ h → ciEq scheme b!"http" = true → HostPort scheme h h 80
  | https {h : Bytes} : ch%':' ∉ h → ciEq scheme b!"https" = true → HostPort scheme h h 443
  | port {h ds : Bytes} : ch%':' ∉ h → ds ≠ [] → (∀ c ∈ ds, isDigit c = true) → decimal ds < 65536 → HostPort scheme (h ++ ch%':' :: ds) h (decimal ds)

/-- The URL leads to the backend: by its address, or by its name if that cannot be resolved. -/
def ToBackend (e : LocEnv) (scheme host : Bytes) (port : Nat) : Prop :=
  (∃ as a, e.lookup host = some as ∧ a ∈ as ∧ a.fam = e.be.addr.fam ∧ a.host = e.be.addr.host ∧ port = e.be.addr.port) ∨
  (e.lookup host = none ∧ ∃ n, e.be.servername = some n ∧ ciEq host n = true ∧ ciEq scheme (if e.be.tls then b!"https" else b!"http") = true)

/-- The URL leads to the listener. -/
def ToListener (e : LocEnv) (vname host : Bytes) : Prop :=
  (∃ as a, e.lookup host = some as ∧ a ∈ as ∧ a.fam = e.lstn.fam ∧ a.host = e.lstn.host) ∨ ciEq host vname = true

/-- With another protocol or port -/
def Elsewhere (e : LocEnv) (scheme : Bytes) (port : Nat) : Prop := ciEq scheme (if e.ltls then b!"https" else b!"http") = false ∨ port ≠ e.lstn.port

/-- When a location is to be rewritten -/
def Rewritable (e : LocEnv) (vname l : Bytes) : Prop :=
  ∃ scheme auth path host port, AbsUrl l scheme auth path ∧ HostPort scheme auth host port ∧
    (((e.mode = 1 ∨ e.mode = 2) ∧ ToBackend e scheme host port) ∨ (e.mode = 1 ∧ ToListener e vname host ∧ Elsewhere e scheme port))

/-- Contains "http://" or "https://" -/
def HasUrl (l : Bytes) : Prop := ∃ a s b, l = a ++ s ++ b!"://" ++ b ∧ (ciEq s b!"http" = true ∨ ciEq s b!"https" = true)

end Pound.Spec
