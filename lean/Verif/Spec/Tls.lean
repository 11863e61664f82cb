import Verif.Model.Tls

/-!
Renegotiation, time-outs and certificates: only the types of events are used from the model.
-/

namespace Pound.Spec

/-- A server begins to read a client hello: reported with one of the two bits of SSL_CB_ACCEPT_LOOP, in one of the two states. -/
def HelloRead (e : InfoEv) : Prop := (e.wh.testBit 0 = true ∨ e.wh.testBit 13 = true) ∧ (e.state = 0x2110 ∨ e.state = 0x2210)

/-- A handshake was completed. -/
def Completed (e : InfoEv) : Prop := e.wh.testBit 5 = true

/-- The events of the handshake among all events -/
def infos (evs : List ConnEv) : List InfoEv := evs.filterMap fun | .info e => some e | .io _ => none

/-- A client hello came after a completed handshake. -/
def Renegotiated (evs : List ConnEv) : Prop :=
  ∃ a d b h c, infos evs = a ++ d :: b ++ h :: c ∧ Completed d ∧ HelloRead h

/-- A certificate as configured: what identifies it, its common names and its alternative names -/
abbrev Cert := Nat × List Bytes × List Bytes

/-- One of its names matches. -/
def CertMatches (fnm : Bytes → Bytes → Bool) (name : Bytes) (c : Cert) : Prop := ∃ n, (n ∈ c.2.1 ∨ n ∈ c.2.2) ∧ fnm n name = true

/-- The first one in the list that matches -/
def FirstMatch (fnm : Bytes → Bytes → Bool) (name : Bytes) (cs : List Cert) (id : Nat) : Prop :=
  ∃ pre c post, cs = pre ++ c :: post ∧ CertMatches fnm name c ∧ (∀ q ∈ pre, ¬ CertMatches fnm name q) ∧ id = c.1

/-- Patterns of the shell, without brackets and backslashes -/
inductive Glob : Bytes → Bytes → Prop where
  | nil : Glob [] []
  | star {p s : Bytes} (x : Bytes) : Glob p s → Glob (ch%'*' :: p) (x ++ s)
  | any {p s : Bytes} (c : UInt8) : Glob p s → Glob (ch%'?' :: p) (c :: s)
  | lit {p s : Bytes} (c : UInt8) : c ≠ ch%'*' → c ≠ ch%'?' → Glob p s → Glob (c :: p) (c :: s)

/-- What is used of fnmatch -/
def FnOk (fnm : Bytes → Bytes → Bool) : Prop := ∀ p s, ch%'[' ∉ p → ch%'\\' ∉ p → (fnm p s = true ↔ Glob p s)

/-- A plain host name -/
def Plain (n : Bytes) : Prop := ch%'*' ∉ n ∧ ch%'?' ∉ n ∧ ch%'[' ∉ n ∧ ch%'\\' ∉ n

/-- A host name matches a name in a certificate (RFC 6125): names are compared without regard to case, a leading "*" stands for one label. -/
def HostMatches (pat host : Bytes) : Prop :=
  ciEq pat host = true ∨ ∃ d l h, pat = b!"*." ++ d ∧ host = l ++ b!"." ++ h ∧ l ≠ [] ∧ ch%'.' ∉ l ∧ ciEq d h = true

end Pound.Spec
