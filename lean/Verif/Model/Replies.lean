import Verif.Model.Exchange
import Verif.Model.Cond

/-!
Model of the replies that the program makes itself: error pages (/repo/src/http.c:84-237), the backends
`Error` (1085-1141), `Redirect` (778-897) and `ACME` (973-1049), and of what is written to a client that makes
requests to such backends on one connection (4615-4945).

Writing to the client does not fail and allocation does not fail.
-/

namespace Pound

/-- The texts of the table `http_status` (/repo/src/http.c:94-156). -/
def statusText : Status → Bytes
  | .ok => b!"Success"
  | .badRequest => b!"Your browser (or proxy) sent a request that this server could not understand."
  | .unauthorized => b!"This server could not verify that you are authorized to access the document requested.  Either you supplied the wrong credentials (e.g., bad password), or your browser doesn't understand how to supply the credentials required."
  | .forbidden => b!"You don't have permission to access this resource. It is either read-protected or not readable by the server."
  | .notFound => b!"The requested URL was not found on this server."
  | .methodNotAllowed => b!"The request method is not supported for the requested resource."
  | .payloadTooLarge => b!"The request content is larger than the proxy server is able to process."
  | .uriTooLong => b!"The length of the requested URL exceeds the capacity limit for this server."
  | .internalError => b!"The server encountered an internal error and was unable to complete your request."
  | .notImplemented => b!"The server does not support the action requested."
  | .serviceUnavailable => b!"The server is temporarily unable to service your request due to maintenance downtime or capacity problems. Please try again later."

/-- `default_error_page` with its four arguments (/repo/src/http.c:163-171, 209-213). -/
def defaultPage (st : Status) : Bytes :=
  b!"<!DOCTYPE HTML PUBLIC \"-//IETF//DTD HTML 2.0//EN\"><html><head><title>" ++
  dec (statusInfo st).1 ++ b!" " ++ (statusInfo st).2 ++
  b!"</title></head><body><h1>" ++ (statusInfo st).2 ++
  b!"</h1><p>" ++ statusText st ++ b!"</p></body></html>"

/-- `http_err` of the listener (/repo/src/pound.h:878): NULL is `none`. -/
abbrev Pages := Status → Option Bytes

/-- The choice of the page in `bio_err_reply` (/repo/src/http.c:207-216). -/
def errPage (pg : Pages) (st : Status) : Bytes :=
  match pg st with
  | some t => t
  | none => defaultPage st

/-- `http_err_reply` (/repo/src/http.c:231-237). -/
def httpErrReply (pg : Pages) (ver : Nat) (st : Status) : Bytes := errReply ver st (errPage pg st)

/-- `http_headers_send` with a true last argument (/repo/src/http.c:3184-3198). -/
def headersSafe (hs : List Header) : Bytes :=
  (hs.filter fun h => !(h.code == .contentLength || h.code == .connection)).flatMap fun h => h.text ++ crlf

/-- `bio_http_reply_start_list` (/repo/src/http.c:52-66). -/
def replyStartList (proto code : Nat) (text : Bytes) (hs : List Header) (len : Nat) : Bytes :=
  b!"HTTP/1." ++ dec proto ++ b!" " ++ dec code ++ b!" " ++ text ++ [13, 10] ++
  (if proto = 1 then
     b!"Content-Length: " ++ dec len ++ [13, 10] ++ b!"Connection: close" ++ [13, 10] else []) ++
  headersSafe hs ++ [13, 10]

/-- The request of `error_response` (/repo/src/http.c:1099-1101): nothing but the headers of errors. The history of matches is
that of the connection, and accessors read the request of the client. -/
def errState (now : PState) : Option PState :=
  match parseHeaderText 4 [] errHeaders with
  | some (.ok hs) => some ⟨⟨[], none, 0, 0, [], [], none, [], false⟩, hs, now.smq, some (now.req, now.hs)⟩
  | _ => none

/-- What a handler of a backend did: bytes written, and its result. -/
inductive Done where
  | did (out : Bytes) (res : Status)
  | ub
  | stuck
deriving DecidableEq, Repr

/-- The text chosen by `error_response` (/repo/src/http.c:1089-1093). -/
def errText (pg : Pages) (err : Status) : Option Bytes → Bytes
  | some t => t
  | none =>
    match pg err with
    | some t => t
    | none => statusText err

/-- `error_response` (/repo/src/http.c:1085-1141) for a backend with the given status and text. -/
def errorResponse (pg : Pages) (x : CondCtx) (svc lstn : List RwRule) (now : PState) (ver : Nat) (err : Status)
    (text : Option Bytes) : Done :=
  match errState now with
  | none => .did [] .internalError
  | some st =>
    match rewriteResponse x svc lstn st with
    | (_, .ub) => .ub
    | (_, .stuck) => .stuck
    | (st, .val v) =>
      if v ≠ 0 then .did [] .internalError
      else .did (replyStartList ver (statusInfo err).1 (statusInfo err).2 st.hs (errText pg err text).length ++ errText pg err text) .ok

/-- What `openat`, `fstat` and reading give for the file of an ACME challenge. `data` is what can be read from the
file: if that is less than its size, reading ends early (/repo/src/http.c:984-1045, 936-970). -/
inductive AcmeFile where
  | noent
  | openErr
  | statErr
  | file (size : Nat) (data : Bytes)
deriving DecidableEq, Repr

/-- `acme_response` (/repo/src/http.c:973-1049) after the rewriting rules. -/
def acmeResponse (ver : Nat) : AcmeFile → Done
  | .noent => .did [] .notFound
  | .openErr => .did [] .internalError
  | .statErr => .did [] .internalError
  | .file size data =>
    .did (replyStart ver 200 b!"OK" [] b!"text/html" size ++ data.take size)
      (if size ≤ data.length then .ok else .internalError)

/-- A backend that is the program itself (/repo/src/http.c:4880-4905), with what its handler uses. Control and
metrics are in Model/Control.lean and Model/Metrics.lean. -/
inductive OwnBe where
  | error (st : Status) (text : Option Bytes) (x : CondCtx) (svc lstn : List RwRule) (now : PState)
  | redirect (env : ExpEnv) (url : Bytes) (code : Nat) (target : Bytes) (hasUri : Bool)
  | acme (f : AcmeFile)

/-- The switch on the type of the backend (/repo/src/http.c:4880-4905) -/
def ownHandler (pg : Pages) (ver : Nat) : OwnBe → Done
  | .error st text x svc lstn now => errorResponse pg x svc lstn now ver st text
  | .redirect env url code target hasUri =>
    match redirectResponse env url ver code target hasUri with
    | .sent r => .did r .ok
    | .err st => .did [] st
    | .ub => .ub
    | .stuck => .stuck
  | .acme f => acmeResponse ver f

/-- The version of the request when it is refused (/repo/src/http.c:4616-4842): that of the request line once
`parse_http_request` has accepted it, else that of an empty request. -/
def errVersion (cfg : LstnCfg) (inp : Bytes) : Nat :=
  match httpRequestRead cfg.table inp with
  | .err _ => 0
  | .ok line _ _ =>
    match parseHttpRequest line cfg.verb with
    | .err _ => 0
    | .ok rl => rl.version

/-- How a connection ended: closed, or in the middle because of undefined behaviour or of an expansion that does not end. -/
inductive OwnEnd where
  | closed | ub | stuck | fuel
deriving DecidableEq, Repr

/-- What is written to a client on one connection (/repo/src/http.c:4615-4945), if all backends are of the program itself:
`sel i a` is the result of `get_service` and `select_backend` for the `i`-th request. The bodies of requests are
not read. -/
def ownConn (cfg : LstnCfg) (msie : Accepted → Bool) (pg : Pages) (sel : Nat → Accepted → Status ⊕ OwnBe) :
    Nat → Nat → Bytes → Bytes × OwnEnd
  | 0, _, _ => ([], .fuel)
  | fuel + 1, i, inp =>
    match acceptRequest cfg inp with
    | .noRequest => ([], .closed)
    | .err st => (httpErrReply pg (errVersion cfg inp) st, .closed)
    | .ub => ([], .ub)
    | .ok a =>
      match sel i a with
      | .inl st => (httpErrReply pg a.rl.version st, .closed)
      | .inr be =>
        match ownHandler pg a.rl.version be with
        | .ub => ([], .ub)
        | .stuck => ([], .stuck)
        | .did out res =>
          if res ≠ .ok then (out ++ httpErrReply pg a.rl.version res, .closed)
          else if a.rl.version = 0 ∨ a.scan.connClosed || forceHttp10 cfg (msie a) then (out, .closed)
          else
            let r := ownConn cfg msie pg sel fuel (i + 1) a.rest
            (out ++ r.1, r.2)

end Pound
