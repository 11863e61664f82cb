import Verif.Model.Channel

/-! Sound use of sockets, TLS objects and references -/

namespace Pound.Spec

open Pound

/-- Each event is in order after what was done before it. -/
def AtAll (P : List BcEv → BcEv → Prop) (t : List BcEv) : Prop := ∀ p e q, t = p ++ e :: q → P p e

/-- A socket is made once, closed once, and used in between for requests to the backend that it was made for only. -/
def SocketOk (p : List BcEv) : BcEv → Prop
  | .open k _ => ∀ c, .open k c ∉ p
  | .close k => (∃ b, .open k b ∈ p) ∧ .close k ∉ p
  | .send k b => .open k b ∈ p ∧ .close k ∉ p
  | .null => False
  | _ => True

/-- A TLS object is made once, for an open socket, and freed once, while the socket is open. -/
def TlsOk (p : List BcEv) : BcEv → Prop
  | .tls k => (∃ b, .open k b ∈ p) ∧ .close k ∉ p ∧ .tls k ∉ p
  | .untls k => .tls k ∈ p ∧ .untls k ∉ p ∧ .close k ∉ p
  | _ => True

/-- References that are held -/
def Held (b : Nat) (p : List BcEv) : Prop := p.count (.unref b) < p.count (.ref b)

/-- Only references that are held are given back. -/
def UnrefOk (p : List BcEv) : BcEv → Prop
  | .unref b => Held b p
  | _ => True

/-- Backends are accessed only while a reference is held. -/
def UseOk (p : List BcEv) : BcEv → Prop
  | .use b => Held b p
  | .send _ b => Held b p
  | .kill b => Held b p
  | _ => True

/-- A backend is marked as dead just after a socket made for it was closed unused. -/
def KillOk (p : List BcEv) : BcEv → Prop
  | .kill b => ∃ k, .open k b ∈ p ∧ .close k ∈ p ∧ ∀ c, .send k c ∉ p
  | _ => True

/-- Nothing but refused connections goes wrong. -/
def OnlyRefused (l : List BcReq) : Prop := ∀ r ∈ l, ∀ x ∈ r.tries, x.2 = .refused ∨ x.2 = .connected .done

/-- There is memory for the TLS layer. -/
def TlsMemory (l : List BcReq) : Prop := ∀ r ∈ l, ∀ x ∈ r.tries, x.2 ≠ .connected .noFilter

/-- The connection was made: at once, or in the time given, with no error. -/
def Connected (e : NbEnv) : Prop :=
  e.connect = .ok () ∨ e.connect = .error 115 ∧ ∃ ev, e.poll = .ok (some ev) ∧ ev.testBit 2 = true ∧ ev.testBit 3 = false ∧ ev.testBit 4 = false

/-- Backends that were marked as dead, in order -/
def marked : List BcEv → List Nat
  | [] => []
  | .kill b :: t => b :: marked t
  | _ :: t => marked t

end Pound.Spec
