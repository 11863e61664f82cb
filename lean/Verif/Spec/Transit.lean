import Verif.Spec.Exchange
import Verif.Spec.Forward
import Verif.Model.Forward

/-!
Specification of the stream of requests a backend reads: what a server that follows RFC 7230, without limits on lengths, takes a sequence of bytes for.
-/

namespace Pound.Spec

/-- Neither CR nor LF -/
def OneLine (s : Bytes) : Prop := ∀ c ∈ s, c ≠ 13 ∧ c ≠ 10

/-- Lines that are not empty, each ended by CRLF, and the empty line after them -/
inductive CrlfLines : Bytes → List Bytes → Prop where
  | done : CrlfLines [13, 10] []
  | more {l w ls} : OneLine l → l ≠ [] → CrlfLines w ls → CrlfLines (l ++ [13, 10] ++ w) (l :: ls)

/-- The line begins with a blank, so it continues the one before it. -/
def Continues (l : Bytes) : Prop := l.head? = some 32 ∨ l.head? = some 9

/-- The text of a header, of one line or more -/
def Folded (t : Bytes) : Prop := ∃ (l : Bytes) (cs : List Bytes), t = l ++ cs.flatMap ([13, 10] ++ ·) ∧ OneLine l ∧ ∀ x ∈ cs, OneLine x ∧ Continues x

/-- The fields that the lines of a header make up -/
inductive Fields : List Bytes → List Bytes → Prop where
  | nil : Fields [] []
  | field {l cs ls fs} : ¬ Continues l → (∀ x ∈ cs, Continues x) → Fields ls fs → Fields (l :: (cs ++ ls)) ((l ++ cs.flatMap ([13, 10] ++ ·)) :: fs)

/-- A request: the request line, the fields of its header and the payload of its body -/
structure Msg where
  line : Bytes
  fields : List Bytes
  payload : Bytes
deriving DecidableEq, Repr

/-- A body that is delimited like that, and its payload -/
inductive BodyOf (strict : Bool) : BodyKind → Bytes → Bytes → Prop where
  | none : BodyOf strict .none [] []
  | length {n b} : b.length = n → BodyOf strict (.length n) b b
  | chunked {lim w p} : Chunked strict lim w p → BodyOf strict .chunked w p

/-- A server takes the bytes `w` for this request. -/
def Sends (strict : Bool) (w : Bytes) (m : Msg) : Prop :=
  ∃ hdr lines k body, w = m.line ++ [13, 10] ++ (hdr ++ body) ∧ m.line ≠ [] ∧ OneLine m.line ∧ CrlfLines hdr lines ∧ Fields lines m.fields ∧
    Framing m.fields k ∧ BodyOf strict k body m.payload

/-- A server takes the bytes for these requests, one after another. -/
inductive Stream (strict : Bool) : Bytes → List Msg → Prop where
  | nil : Stream strict [] []
  | cons {w m ws ms} : Sends strict w m → Stream strict ws ms → Stream strict (w ++ ws) (m :: ms)

/-- The payload of a body, taken from the client's stream; `rest` follows. -/
inductive BodyFrom (strict : Bool) : BodyKind → Bytes → Bytes → Bytes → Prop where
  | none {r} : BodyFrom strict .none r [] r
  | length {n p r} : p.length = n → BodyFrom strict (.length n) (p ++ r) p r
  | chunked {inp w p r} : Chunked strict 4095 w p → Consumed inp w r → BodyFrom strict .chunked inp p r

/-- The texts that come from the configuration, the client's address and the TLS library are single lines (the description of a cipher ends with LF), and the client's socket
has an address. -/
structure CleanFwd (c : FwdCfg) : Prop where
  addr : match c.peer with
    | .unix p => p ≠ [] ∧ OneLine p
    | .inet h _ => OneLine h
    | .inet6 h _ => OneLine h
  be : OneLine c.beAddr
  name : ∀ n, c.servername = some n → OneLine n
  cipher : ∀ e v d, c.tls = some e → e.cipher = some (v, d) → OneLine v ∧ 13 ∉ d

/-- What rewriting does to a request line and headers: line and headers before, line and headers after -/
abbrev Rewrites := Bytes → List Header → Bytes → List Header → Prop

/-- Rewriting leaves request lines and headers well-formed and the framing headers alone. -/
def Harmless (R : Rewrites) : Prop :=
  ∀ line hs line' hs', R line hs line' hs' → line ≠ [] → OneLine line → (∀ h ∈ hs, Folded h.text ∧ ∃ n v, HeaderLine h.text n v) →
    line' ≠ [] ∧ OneLine line' ∧ (∀ h ∈ hs', Folded h.text ∧ ∃ n v, HeaderLine h.text n v) ∧
    HeadersNamed b!"Transfer-Encoding" (hs'.map (·.text)) = HeadersNamed b!"Transfer-Encoding" (hs.map (·.text)) ∧
    HeadersNamed b!"Content-Length" (hs'.map (·.text)) = HeadersNamed b!"Content-Length" (hs.map (·.text))

/-- The names of the headers that tell about the client or depend on the backend -/
def ownNames : List Bytes :=
  [b!"Destination", b!"Host", b!"X-Forwarded-For", b!"X-Forwarded-Proto", b!"X-Forwarded-Port", b!"X-SSL-cipher", b!"X-SSL-Subject", b!"X-SSL-Issuer", b!"X-SSL-notBefore",
    b!"X-SSL-notAfter", b!"X-SSL-serial", b!"X-SSL-certificate"]

/-- The headers of a request and those passed on, before rewriting rules: all but `Expect: 100-continue`, and except for those of the names above, unchanged -/
def PassedOn (ts fs : List Bytes) : Prop :=
  ∃ keep : Bytes → Bool, (∀ t ∈ ts, keep t = false ↔ ∃ n v, HeaderLine t n v ∧ ciEq n b!"Expect" ∧ ciEq v b!"100-continue") ∧
    HeadersNotNamed ownNames fs = HeadersNotNamed ownNames (ts.filter keep)

end Pound.Spec
