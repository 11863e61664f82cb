import Verif.Spec.Exchange
import Verif.Spec.Request

/-!
Specification of switching to the WebSocket protocol (RFC 6455, section 4).
-/

namespace Pound.Spec

/-- Characters that separate words in a Connection header -/
def WordSep (c : UInt8) : Prop := c = 32 ∨ c = 9 ∨ c = ch%','

/-- One of the words of the header is `upgrade`. -/
def SaysUpgrade (v : Bytes) : Prop :=
  ∃ p w s, v = p ++ w ++ s ∧ ciEq w b!"upgrade" = true ∧ (p = [] ∨ ∃ q d, p = q ++ [d] ∧ WordSep d) ∧ (s = [] ∨ ∃ d t, s = d :: t ∧ WordSep d)

/-- The request asks to switch: it is a GET request with a Connection header that says `upgrade`, and not `close`, and an Upgrade header that lists `websocket`. -/
def AsksSwitch (line : Bytes) (ts : List Bytes) : Prop :=
  (∃ url v, RequestLine line b!"GET" url v) ∧
  (∃ vs, Values b!"Connection" ts vs ∧ ∃ v ∈ vs, SaysUpgrade v ∧ ¬ HasTok v b!"close") ∧
  (∃ vs, Values b!"Upgrade" ts vs ∧ ∃ v ∈ vs, HasTok v b!"websocket")

/-- The response agrees: it has the code 101, a Connection header that says `upgrade` and an Upgrade header that lists `websocket`. -/
def AgreesSwitch (code : Nat) (ts : List Bytes) : Prop :=
  code = 101 ∧ (∃ vs, Values b!"Connection" ts vs ∧ ∃ v ∈ vs, SaysUpgrade v) ∧ (∃ vs, Values b!"Upgrade" ts vs ∧ ∃ v ∈ vs, HasTok v b!"websocket")

end Pound.Spec
