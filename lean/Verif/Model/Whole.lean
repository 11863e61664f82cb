import Verif.Model.FullCfg
import Verif.Model.Replies
import Verif.Model.BeCfg
import Verif.Model.Forward
import Verif.Model.Location

/-!
Model of what is written to a client of a listener as it is configured: the parts of do_http (/repo/src/http.c:4615-4945) joined with the result of reading the configuration.  Backends are those
of the program itself, Error and Redirect; other ones, and undefined behaviour in conditions or rules, are `none` here.
-/

namespace Pound

/-- What a request meets: the results of access lists, files of users and certificates, the matches that were recorded on the connection so far, and the backend that get_backend
(/repo/src/svc.c:987-1049) returns for the service at each place.  That matches are given, instead of those of the requests before, is a simplification: what is proved holds for any. -/
structure Meets where
  ctx : CondCtx
  smq : Smq
  given : Nat → Option Nat

/-- The number in the table `http_status` that http_status_to_pound finds (/repo/src/http.c:94-156, 172-181) -/
def statusOfCode (c : Nat) : Option Status :=
  [Status.ok, .badRequest, .unauthorized, .forbidden, .notFound, .methodNotAllowed, .payloadTooLarge, .uriTooLong, .internalError, .notImplemented, .serviceUnavailable].find?
    fun st => (statusInfo st).1 == c

/-- The members of a listener that do_http uses (/repo/src/pound.h:862-898); the headers that can be combined are those of the whole configuration. -/
def Installed.lstn (k : Installed) (g : Glob) (l : Lst LOther) : LstnCfg :=
  { verb := l.st.verb.toNat, table := g.combine, urlPat := l.st.urlPat.map fun p u => (k.re p u).ok, maxUri := l.st.maxUri, maxReq := l.st.maxReq, noHttps11 := l.st.noHttps11.toNat, ssl := l.tls }

/-- The pages of a listener, http_err (/repo/src/pound.h:878): the configuration has them by code -/
def lstnPages (l : Lst LOther) : Pages := fun st => l.st.err (statusInfo st).1

/-- The switch on the type of the backend (/repo/src/http.c:4880-4905); redirect_response applies the rules for requests first (/repo/src/http.c:821-825), and if these fail the reply is an error. -/
def wholeBe (k : Installed) (l : Lst LOther) (v : FullSvc) (c : CondCtx) (st : PState) : FBeV → Option (Status ⊕ OwnBe)
  | .error code text =>
    match statusOfCode code with
    | none => none
    | some s => some (.inr (.error s text c (v.cfg.resp.map k.rule) (l.other.resp.map k.rule) st))
  | .redirect code target hasUri =>
    match rewriteRequest c (l.other.req.map k.rule) (v.cfg.req.map k.rule) st with
    | (st, .val r) => if r = 0 then some (.inr (.redirect st.env st.req.url code target (hasUri != 0))) else some (.inl .internalError)
    | _ => none
  | _ => none

/-- get_service and select_backend (/repo/src/http.c:4855-4867, 4391-4409) for an accepted request -/
def wholeSel (k : Installed) (global : List FullSvc) (l : Lst LOther) (fs : Nat → List FGrp) (m : Meets) (a : Accepted) : Option (Status ⊕ OwnBe) :=
  match chooseService m.ctx (l.other.svcs.map fun v => k.svc v.cfg) (global.map fun v => k.svc v.cfg) ⟨Req.fresh a.line a.rl, a.scan.headers, m.smq, none⟩ with
  | .inr () => none
  | .inl (_, .error st) => some (.inl st)
  | .inl (st, .ok i) =>
    match (l.other.svcs ++ global)[i]? with
    | none => none
    | some v =>
      match m.given i with
      | none => some (.inl .serviceUnavailable)
      | some id =>
        match ((fs i).flatMap (·.bes))[id]? with
        | none => none
        | some f => wholeBe k l v m.ctx st f.v

/-- A connection (/repo/src/http.c:4615-4945), as in `ownConn` -/
def wholeConn (cfg : LstnCfg) (msie : Accepted → Bool) (pg : Pages) (sel : Nat → Accepted → Option (Status ⊕ OwnBe)) : Nat → Nat → Bytes → Option (Bytes × OwnEnd)
  | 0, _, _ => some ([], .fuel)
  | fuel + 1, i, inp =>
    match acceptRequest cfg inp with
    | .noRequest => some ([], .closed)
    | .err st => some (httpErrReply pg (errVersion cfg inp) st, .closed)
    | .ub => some ([], .ub)
    | .ok a =>
      match sel i a with
      | none => none
      | some (.inl st) => some (httpErrReply pg a.rl.version st, .closed)
      | some (.inr be) =>
        match ownHandler pg a.rl.version be with
        | .ub => some ([], .ub)
        | .stuck => some ([], .stuck)
        | .did out res =>
          if res ≠ .ok then some (out ++ httpErrReply pg a.rl.version res, .closed)
          else if a.rl.version = 0 ∨ a.scan.connClosed || forceHttp10 cfg (msie a) then some (out, .closed)
          else (wholeConn cfg msie pg sel fuel (i + 1) a.rest).map fun r => (out ++ r.1, r.2)

/-- What is written on a connection to the listener -/
def whole (k : Installed) (g : Glob) (o : FullObjs) (l : Lst LOther) (fs : Nat → List FGrp) (msie : Accepted → Bool) (m : Nat → Meets) (inp : Bytes) : Option (Bytes × OwnEnd) :=
  wholeConn (k.lstn g l) msie (lstnPages l) (fun i => wholeSel k o.svcs l fs (m i)) (inp.length + 1) 0 inp

/-! ### Regular backends -/

/-- What forwarding depends on besides the configuration: the client's address, the port of the listener's socket, what OpenSSL knows about the client, and the textual form of the addresses
of backends (str_be, /repo/src/svc.c:523-558) -/
structure ConnFacts where
  peer : PeerAddr
  port : Nat
  ssl : SslEnv
  beText : BeAddr → Nat → Bytes

/-- What send_to_backend uses of the listener and of the backend (/repo/src/http.c:4160-4240, backend_is_https at /repo/src/pound.h:581-584) -/
def fwdOf (l : Lst LOther) (w : ConnFacts) (addr : BeAddr) (port : Nat) (ctx : Option (List CtxOp)) (sni : Option Bytes) : FwdCfg :=
  { rewrDest := l.st.rewrDest, forwarded := l.st.hdr.fwd, ssl := l.st.hdr.ssl, peer := w.peer, port := w.port, tls := if l.tls then some w.ssl else none, beAddr := w.beText addr port,
    beTls := ctx.isSome, servername := sni }

/-- The first part of send_to_backend, with the rules of the listener and then those of the service (/repo/src/http.c:4160-4245), in the state that get_service leaves.  Undefined behaviour is not
told apart from failures here; what is proved is about requests for which the rules are defined. -/
def fwdEdit (k : Installed) (l : Lst LOther) (v : FullSvc) (c : CondCtx) (st : PState) (fc : FwdCfg) : Bytes → List Header → Option (Bytes × List Header) := fun _ hs =>
  match forwardHead fc hs with
  | .ub => none
  | .ok mid =>
    match rewriteRequest c (l.other.req.map k.rule) (v.cfg.req.map k.rule) { st with hs := mid } with
    | (st', .val r) => if r = 0 then some (st'.req.request, st'.hs) else none
    | _ => none

/-- http_request_host, /repo/src/http.c:2571-2585: the value of the first Host header -/
def hostOf (hs : List Header) : Option Bytes := (hs.find? (·.code == .host)).map (·.rawValue)

/-- What is known of addresses: that of the listener, what listener_port takes for its port (see `LocEnv`), those of backends, and of names -/
structure NetFacts where
  lstn : SockA
  lport : Nat
  sock : BeAddr → Nat → SockA
  lookup : Bytes → Option (List SockA)

/-- What need_rewrite uses of the listener and of the backend (/repo/src/svc.c:1409-1502) -/
def locOf (l : Lst LOther) (n : NetFacts) (addr : BeAddr) (port : Nat) (ctx : Option (List CtxOp)) (sni : Option Bytes) : LocEnv :=
  { mode := l.st.rewrLoc.toNat, lstn := n.lstn, ltls := l.tls, lport := n.lport, be := ⟨n.sock addr port, sni, ctx.isSome⟩, lookup := n.lookup }

/-- What the relaying of a response depends on (/repo/src/http.c:3700-3835): the headers that can be combined, the listener, and the Host of the request as it was sent.  Rules for
responses and the rest are those of `env`. -/
def relayOf (g : Glob) (l : Lst LOther) (le : LocEnv) (sent : Option (Bytes × List Header)) (env : RespEnv) : RespEnv :=
  { env with table := g.combine, loc := locText le l.tls (sent.bind fun x => hostOf x.2) }

/-- What is done about an accepted request, for services with regular backends (/repo/src/http.c:4855-4919); `beIn` is what the backend sends. -/
def wholeServe (k : Installed) (g : Glob) (global : List FullSvc) (l : Lst LOther) (fs : Nat → List FGrp) (w : ConnFacts) (n : NetFacts) (m : Meets) (env : RespEnv) (beIn : Bytes) (a : Accepted) : Option Serve :=
  match chooseService m.ctx (l.other.svcs.map fun v => k.svc v.cfg) (global.map fun v => k.svc v.cfg) ⟨Req.fresh a.line a.rl, a.scan.headers, m.smq, none⟩ with
  | .inr () => none
  | .inl (_, .error st) => some (.none st)
  | .inl (st, .ok i) =>
    match (l.other.svcs ++ global)[i]? with
    | none => none
    | some v =>
      match m.given i with
      | none => some (.none .serviceUnavailable)
      | some id =>
        match ((fs i).flatMap (·.bes))[id]? with
        | none => none
        | some f =>
          match f.v with
          | .regular addr port _ _ _ ctx sni =>
            let edit := fwdEdit k l v m.ctx st (fwdOf l w addr port ctx sni)
            some (.regular edit (relayOf g l (locOf l n addr port ctx sni) (edit a.line a.scan.headers) env) beIn)
          | _ => none

end Pound
