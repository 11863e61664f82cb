import Verif.Model.Acl

/-! Networks and forwarding headers. -/

namespace Pound.Spec

open Pound

/-- The `i`-th bit of an address, counted from its most significant bit -/
def bitOf (a : Bytes) (i : Nat) : Bool :=
  match a[i / 8]? with
  | some c => c.toNat.testBit (7 - i % 8)
  | none => false

/-- The bytes of an address -/
def bytesOf : Sockaddr → Bytes
  | .inet a => a
  | .inet6 a => a
  | .other => []

/-- An Internet address: 32 or 128 bits -/
def IsAddr : Sockaddr → Prop
  | .inet a => a.length = 4
  | .inet6 a => a.length = 16
  | .other => False

/-- A network: an address and the number of bits that count -/
structure Net where
  addr : Sockaddr
  bits : Nat

/-- The address belongs to the network: same family, and the first bits agree. -/
def InNet (sa : Sockaddr) (n : Net) : Prop :=
  sa.family = n.addr.family ∧ ∀ i, i < n.bits → bitOf (bytesOf sa) i = bitOf (bytesOf n.addr) i

/-- The value of a string of decimal digits -/
def decimal (ds : Bytes) : Nat := ds.foldl (fun v c => v * 10 + (c.toNat - 48)) 0

/-- What an entry of an ACL denotes: "ADDRESS" or "ADDRESS/BITS" -/
inductive EntryOf (N : Bytes → Option (List Sockaddr)) : Bytes → Net → Prop
  | host {a : Bytes} {sa sas} : ch%'/' ∉ a → N a = some (sa :: sas) → IsAddr sa →
      EntryOf N a ⟨sa, 8 * (bytesOf sa).length⟩
  | net {a ds : Bytes} {sa sas} : ch%'/' ∉ a → N a = some (sa :: sas) → IsAddr sa →
      ds ≠ [] → (∀ c ∈ ds, isDigit c = true) → decimal ds ≤ 8 * (bytesOf sa).length →
      EntryOf N (a ++ ch%'/' :: ds) ⟨sa, decimal ds⟩

/-- The body of an ACL: entries on any number of lines, then "End".  `nets` are the networks it lists. -/
inductive AclBody (N : Bytes → Option (List Sockaddr)) : List CTok → List Net → List CTok → Prop
  | done {s ts} : ciEq s b!"end" = true → AclBody N (.ident s :: ts) [] ts
  | nl {ts nets r} : AclBody N ts nets r → AclBody N (.nl :: ts) nets r
  | entry {s ts net nets r} : EntryOf N s net → AclBody N ts nets r → AclBody N (.str s :: ts) (net :: nets) r

/-- Entries separated by commas -/
def commaJoin : List Bytes → Bytes
  | [] => []
  | [e] => e
  | e :: es => e ++ ch%',' :: commaJoin es

/-- `w` is the first word of the entry `e`: after optional spaces, up to a space or the end. -/
def FirstWord (e w : Bytes) : Prop :=
  ∃ sp r, e = sp ++ w ++ r ∧ (∀ c ∈ sp, isSpace c = true) ∧ (∀ c ∈ w, isSpace c = false) ∧
    (w = [] → r = []) ∧ (∀ c, r.head? = some c → isSpace c = true)

/-- The text is a numeric address in one of the networks. -/
def Trusted (N : Bytes → Option (List Sockaddr)) (nets : List Net) (w : Bytes) : Prop :=
  ∃ sas, N w = some sas ∧ ∃ sa ∈ sas, ∃ n ∈ nets, InNet sa n

/-- The text is a numeric address, but in none of the networks. -/
def Untrusted (N : Bytes → Option (List Sockaddr)) (nets : List Net) (w : Bytes) : Prop :=
  ∃ sas, N w = some sas ∧ ∀ sa ∈ sas, ∀ n ∈ nets, ¬ InNet sa n

end Pound.Spec
