import Verif.Spec.Replies
import Verif.Spec.FullServed
import Verif.Spec.Transit
import Verif.Spec.Location

/-!
Specification of connections to a listener: what is to be done about each request, and what the client reads.
-/

namespace Pound.Spec

/-- What is done about a request: it is refused, or answered by an Error backend with this status and text, or it is redirected, with this code, to this location. -/
inductive Decision where
  | refuse (st : Status)
  | error (st : Status) (text : Option Bytes)
  | redirect (code : Nat) (loc : Bytes)

/-- The code and the page that the client gets; pages for statuses are those of the listener. -/
inductive AnswerTo (pg : Pages) : Decision → Nat × Bytes → Prop
  | refuse {st y} : ErrorAnswer pg st y → AnswerTo pg (.refuse st) y
  | text {st t} : AnswerTo pg (.error st (some t)) ((codeReason st).1, t)
  | page {st t} : pg st = some t → AnswerTo pg (.error st none) ((codeReason st).1, t)
  | plain {st t} : pg st = none → Sentence t → AnswerTo pg (.error st none) ((codeReason st).1, t)
  | redirect {code loc page} : ((∀ c ∈ loc, c < 128) → LinksTo loc page) → AnswerTo pg (.redirect code loc) (code, page)

/-- The requests on a connection and what is done about them; the Booleans say which of them are HEAD requests.  A refusal ends the connection; otherwise it ends when the client is not HTTP/1.1
or wants it, or the listener has to. -/
inductive Treats (cfg : LstnCfg) (msie : Accepted → Bool) (D : Nat → Accepted → Decision → Prop) : Nat → Bytes → List (Bool × Decision) → Prop
  | done {i inp} : acceptRequest cfg inp = .noRequest → Treats cfg msie D i inp []
  | bad {i inp st} : acceptRequest cfg inp = .err st → Treats cfg msie D i inp [(false, .refuse st)]
  | refused {i inp a st} : acceptRequest cfg inp = .ok a → D i a (.refuse st) → Treats cfg msie D i inp [(a.rl.meth == METH b!"HEAD", .refuse st)]
  | last {i inp a d} : acceptRequest cfg inp = .ok a → D i a d → (∀ st, d ≠ .refuse st) → (a.rl.version = 0 ∨ a.scan.connClosed = true ∨ HttpsClose cfg (msie a)) →
      Treats cfg msie D i inp [(a.rl.meth == METH b!"HEAD", d)]
  | more {i inp a d l} : acceptRequest cfg inp = .ok a → D i a d → (∀ st, d ≠ .refuse st) → a.rl.version = 1 → a.scan.connClosed = false → ¬ HttpsClose cfg (msie a) →
      Treats cfg msie D (i + 1) a.rest l → Treats cfg msie D i inp ((a.rl.meth == METH b!"HEAD", d) :: l)

/-- The headers of a request and those that are passed on, before rules: those about the client are true unless they are switched off, Host is the ServerName of the backend if it has one,
and others are as they were (`PassedOn`). -/
structure Prepared (c : FwdCfg) (ts fs : List Bytes) : Prop where
  others : PassedOn ts fs
  proto : c.forwarded = true → HeadersNamed b!"X-Forwarded-Proto" fs =
    (if c.tls.isSome then b!"X-Forwarded-Proto: https" else b!"X-Forwarded-Proto: http") :: (HeadersNamed b!"X-Forwarded-Proto" ts).drop 1
  port : c.forwarded = true → (∀ p, c.peer ≠ .unix p) → HeadersNamed b!"X-Forwarded-Port" fs = (b!"X-Forwarded-Port: " ++ dec c.port) :: (HeadersNamed b!"X-Forwarded-Port" ts).drop 1
  off : c.forwarded = false → ∀ n ∈ [b!"X-Forwarded-For", b!"X-Forwarded-Proto", b!"X-Forwarded-Port"], HeadersNamed n fs = HeadersNamed n ts
  host : ∀ n, c.servername = some n → HeadersNamed b!"Host" fs = (b!"Host: " ++ n) :: (HeadersNamed b!"Host" ts).drop 1
  hostKept : c.servername = none → HeadersNamed b!"Host" fs = HeadersNamed b!"Host" ts
  dest : c.rewrDest = false → HeadersNamed b!"Destination" fs = HeadersNamed b!"Destination" ts

/-- A request line and headers that are well-formed, with the framing of the headers before (see C94 for rules that guarantee that). -/
structure Intact (before : List Bytes) (line : Bytes) (hs : List Bytes) : Prop where
  some : line ≠ []
  single : OneLine line
  lines : ∀ t ∈ hs, Folded t ∧ ∃ n v, HeaderLine t n v
  coding : HeadersNamed b!"Transfer-Encoding" hs = HeadersNamed b!"Transfer-Encoding" before
  length : HeadersNamed b!"Content-Length" hs = HeadersNamed b!"Content-Length" before

/-- The value of the first Host header -/
inductive HostOf (hs : List Bytes) : Option Bytes → Prop where
  | none : (∀ t ∈ hs, ¬ Named t b!"Host") → HostOf hs none
  | some {a t b n v} : hs = a ++ t :: b → (∀ y ∈ a, ¬ Named y b!"Host") → HeaderLine t n v → ciEq n b!"Host" = true → HostOf hs (some v)

/-- A header line with a new location: on the server as the client knows it -/
def movedLine (location ssl : Bool) (host path : Bytes) : Bytes :=
  (if location then b!"Location: " else b!"Content-location: ") ++ (if ssl then b!"https" else b!"http") ++ b!"://" ++ host ++ (if path = [] then b!"/" else path)

/-- What becomes of a header line of a response, by RewriteLocation: with 0 nothing; URLs that lead to the backend get the scheme and the host of the client's request, and with 2 no other ones
do (for 1 see C48). -/
structure Located (e : LocEnv) (ssl : Bool) (vhost : Option Bytes) (t t' : Bytes) : Prop where
  others : ¬ Named t b!"Location" → ¬ Named t b!"Content-location" → t' = t
  off : e.mode = 0 ∨ (e.be.addr.fam ≠ 2 ∧ e.be.addr.fam ≠ 10) ∨ vhost = none ∨ vhost = some [] → t' = t
  noUrl : ∀ n v, HeaderLine t n v → ¬ HasUrl v → t' = t
  moved : t' ≠ t → ∃ n v pre u scheme auth path host, HeaderLine t n v ∧ v = pre ++ u ∧ AbsUrl u scheme auth path ∧ vhost = some host ∧ t' = movedLine (ciEq n b!"Location") ssl host path
  backend : ∀ n v scheme auth path name port host, HeaderLine t n v → ciEq n b!"Location" = true ∨ ciEq n b!"Content-location" = true → AbsUrl v scheme auth path →
    HostPort scheme auth name port → e.mode ≠ 0 → e.be.addr.fam = 2 ∨ e.be.addr.fam = 10 → vhost = some host → host ≠ [] → ToBackend e scheme name port →
    t' = movedLine (ciEq n b!"Location") ssl host path
  foreign : ∀ n v scheme auth path name port, HeaderLine t n v → AbsUrl v scheme auth path → HostPort scheme auth name port → e.mode = 2 → ¬ ToBackend e scheme name port → t' = t

end Pound.Spec
