import Verif.Spec.Expand
import Verif.Spec.Exchange
import Verif.Model.Replies

/-!
Specification of what a client reads: a stream of replies, one for each of its requests, and which replies the
configuration asks for.
-/

namespace Pound.Spec

/-- The stream `w` consists of one reply to each request of a client; `heads` says which of them were HEAD requests.
The client gets the given codes and bodies.  A body is as long as declared, and missing in replies to HEAD; without a declared
length it extends to the end of the stream. -/
inductive Replies : List Bool → Bytes → List (Nat × Bytes) → Prop
  | nil : Replies [] [] []
  | len {lim sl line ver code blk lines v body heads rest xs} :
      WireLine lim sl line → ResponseLine line ver code → Block lim blk lines →
      Values b!"Transfer-Encoding" lines [] → Values b!"Content-Length" lines [v] → DeclaresLength v body.length →
      Replies heads rest xs → Replies (false :: heads) (sl ++ (blk ++ (body ++ rest))) ((code, body) :: xs)
  | head {lim sl line ver code blk lines heads rest xs} :
      WireLine lim sl line → ResponseLine line ver code → Block lim blk lines →
      Replies heads rest xs → Replies (true :: heads) (sl ++ (blk ++ rest)) ((code, []) :: xs)
  | eof {lim sl line ver code blk lines body} :
      WireLine lim sl line → ResponseLine line ver code → Block lim blk lines →
      Values b!"Transfer-Encoding" lines [] → Values b!"Content-Length" lines [] →
      Replies [false] (sl ++ (blk ++ body)) [(code, body)]

/-- The reply says that the connection will be closed. -/
def SaysClose (w : Bytes) : Prop :=
  ∃ lim sl line blk lines rest v, w = sl ++ (blk ++ rest) ∧ WireLine lim sl line ∧ Block lim blk lines ∧
    Values b!"Connection" lines [v] ∧ HasTok v b!"close"

/-- Status codes (RFC 7231 6), with their reason phrases. -/
def codeReason : Status → Nat × Bytes
  | .ok => (200, b!"OK")
  | .badRequest => (400, b!"Bad Request")
  | .unauthorized => (401, b!"Unauthorized")
  | .forbidden => (403, b!"Forbidden")
  | .notFound => (404, b!"Not Found")
  | .methodNotAllowed => (405, b!"Method Not Allowed")
  | .payloadTooLarge => (413, b!"Payload Too Large")
  | .uriTooLong => (414, b!"URI Too Long")
  | .internalError => (500, b!"Internal Server Error")
  | .notImplemented => (501, b!"Not Implemented")
  | .serviceUnavailable => (503, b!"Service Unavailable")

/-- A sentence: printable characters and no markup. -/
def Sentence (t : Bytes) : Prop := t ≠ [] ∧ ∀ c ∈ t, Text c ∧ c ≠ ch%'<' ∧ c ≠ ch%'>' ∧ c ≠ ch%'&'

/-- A page made by the program: it says code and reason in its title, the reason in its heading, and an explanation. -/
def MadePage (code : Nat) (reason body : Bytes) : Prop :=
  ∃ doctype ds t, Denotes 10 ds code ∧ ds.length = 3 ∧ Sentence t ∧
    body = doctype ++ b!"<html><head><title>" ++ ds ++ b!" " ++ reason ++ b!"</title></head><body><h1>" ++ reason ++
      b!"</h1><p>" ++ t ++ b!"</p></body></html>"

/-- The answer to a request that fails: the code of the error; the page is the one configured for it, if any. -/
inductive ErrorAnswer (pg : Pages) (st : Status) : Nat × Bytes → Prop
  | configured {t} : pg st = some t → ErrorAnswer pg st ((codeReason st).1, t)
  | made {t} : pg st = none → MadePage (codeReason st).1 (codeReason st).2 t → ErrorAnswer pg st ((codeReason st).1, t)

/-- The page has a link to the location; bytes that cannot stand in a URL are encoded. -/
def LinksTo (loc page : Bytes) : Prop := ∃ pre enc post, PctEncodes loc enc ∧ page = pre ++ b!"<a href=\"" ++ enc ++ b!"\">" ++ post

/-- The answers of the program's own backends to a request of the given version; the Boolean says that the backend failed. -/
inductive OwnAnswer (pg : Pages) (ver : Nat) : OwnBe → Bool → Nat × Bytes → Prop
  /-- an Error backend with a text of its own -/
  | text {st t x svc lstn smq} : OwnAnswer pg ver (.error st (some t) x svc lstn smq) false ((codeReason st).1, t)
  /-- an Error backend without, if the listener has a page for the status -/
  | page {st t x svc lstn smq} : pg st = some t → OwnAnswer pg ver (.error st none x svc lstn smq) false ((codeReason st).1, t)
  /-- neither: an explanation -/
  | plain {st t x svc lstn smq} : pg st = none → Sentence t → OwnAnswer pg ver (.error st none x svc lstn smq) false ((codeReason st).1, t)
  /-- rewriting rules for responses failed -/
  | rules {st text x svc lstn smq y} : (∃ st0 st1 v, errState smq = some st0 ∧ rewriteResponse x svc lstn st0 = (st1, .val v) ∧ v ≠ 0) →
      ErrorAnswer pg .internalError y → OwnAnswer pg ver (.error st text x svc lstn smq) true y
  /-- a redirection, if the new location can be told, see C11 -/
  | redirect {env url code target hasUri page loc} : code ∈ [301, 302, 303, 307, 308] → expandUrl env url target hasUri = .str loc → ((∀ c ∈ loc, c < 128) → LinksTo loc page) →
      OwnAnswer pg ver (.redirect env url code target hasUri) false (code, page)
  /-- the new location cannot be told -/
  | noRedirect {env url code target hasUri y} : redirectResponse env url ver code target hasUri = .err .internalError →
      ErrorAnswer pg .internalError y → OwnAnswer pg ver (.redirect env url code target hasUri) true y
  /-- a challenge -/
  | challenge {data} : OwnAnswer pg ver (.acme (.file data.length data)) false (200, data)
  | noChallenge {y} : ErrorAnswer pg .notFound y → OwnAnswer pg ver (.acme .noent) true y
  | badChallenge {f y} : f = .openErr ∨ f = .statErr → ErrorAnswer pg .internalError y → OwnAnswer pg ver (.acme f) true y

/-- NoHTTPS11: connections with TLS are not kept, with 2 only those of clients that are said to be some browser, /repo/doc/pound.8:1309-1321 -/
def HttpsClose (cfg : LstnCfg) (browser : Bool) : Prop := cfg.ssl = true ∧ (cfg.noHttps11 = 1 ∨ cfg.noHttps11 = 2 ∧ browser = true)

/-- What a client gets for the requests that it sends on one connection, in this order; the Booleans say which of them
are HEAD requests (a request that is refused when it is read counts as another one).  The connection ends with an error; otherwise
when the client is not HTTP/1.1 or wants it, or the listener has to. -/
inductive Served (cfg : LstnCfg) (msie : Accepted → Bool) (pg : Pages) (sel : Nat → Accepted → Status ⊕ OwnBe) :
    Nat → Bytes → List (Bool × Nat × Bytes) → Prop
  | done {i inp} : acceptRequest cfg inp = .noRequest → Served cfg msie pg sel i inp []
  | refused {i inp st y} : acceptRequest cfg inp = .err st → ErrorAnswer pg st y → Served cfg msie pg sel i inp [(false, y)]
  | noBackend {i inp a st y} : acceptRequest cfg inp = .ok a → sel i a = .inl st → ErrorAnswer pg st y →
      Served cfg msie pg sel i inp [(a.rl.meth == METH b!"HEAD", y)]
  | failed {i inp a be y} : acceptRequest cfg inp = .ok a → sel i a = .inr be → OwnAnswer pg a.rl.version be true y →
      Served cfg msie pg sel i inp [(a.rl.meth == METH b!"HEAD", y)]
  | last {i inp a be y} : acceptRequest cfg inp = .ok a → sel i a = .inr be → OwnAnswer pg a.rl.version be false y →
      (a.rl.version = 0 ∨ a.scan.connClosed = true ∨ HttpsClose cfg (msie a)) →
      Served cfg msie pg sel i inp [(a.rl.meth == METH b!"HEAD", y)]
  | more {i inp a be y l} : acceptRequest cfg inp = .ok a → sel i a = .inr be → OwnAnswer pg a.rl.version be false y →
      a.rl.version = 1 → a.scan.connClosed = false → ¬ HttpsClose cfg (msie a) →
      Served cfg msie pg sel (i + 1) a.rest l → Served cfg msie pg sel i inp ((a.rl.meth == METH b!"HEAD", y) :: l)

end Pound.Spec
