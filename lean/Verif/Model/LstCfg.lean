import Verif.Model.BeCfg
import Verif.Model.Framing

/-!
Listeners in a configuration: /repo/src/config.c:184-207, 277-294, 1745-1762, 2767-2832, 2906-2946, 2977-3440, 3574-3667, 3710-4147.

The input is given by its tokens, as in Model/SvcCfg.lean and Model/BeCfg.lean.  Looking up addresses, reading files and loading certificates are parameters.  A missing
argument (a newline) is taken as refused (see C46).  Memory allocation succeeds; locations are not modelled.
-/

namespace Pound

/-! ### Sections of settings -/

/-- A parser function that reads its arguments, which gives a setting, and then makes an assignment (or refuses to).  `nonl`: the newline is part of the arguments
(CFGPARSER_OK_NONL, /repo/src/cfgparser.h:146-152). -/
def setParser {δ σ : Type} (arg : List Tok → Option (δ × List Tok)) (nonl : Bool) (app : δ → σ → Option σ) : LParser σ := fun s =>
  match arg s.toks with
  | none => .fail
  | some (x, r) =>
    match app x s.data with
    | none => .fail
    | some d => if nonl then .nonl { s with data := d, toks := r } else .ok { s with data := d, toks := r }

/-- A parser for a part of the data -/
def onFst {σ ω : Type} (p : LParser σ) : LParser (σ × ω) := fun s =>
  match p ⟨s.data.1, s.toks, s.errs⟩ with
  | .ok t => .ok ⟨(t.data, s.data.2), t.toks, t.errs⟩
  | .nonl t => .nonl ⟨(t.data, s.data.2), t.toks, t.errs⟩
  | .fin t => .fin ⟨(t.data, s.data.2), t.toks, t.errs⟩
  | .fail => .fail

/-- A parser for the other part of the data -/
def onSnd {σ ω : Type} (p : LParser ω) : LParser (σ × ω) := fun s =>
  match p ⟨s.data.2, s.toks, s.errs⟩ with
  | .ok t => .ok ⟨(s.data.1, t.data), t.toks, t.errs⟩
  | .nonl t => .nonl ⟨(s.data.1, t.data), t.toks, t.errs⟩
  | .fin t => .fin ⟨(s.data.1, t.data), t.toks, t.errs⟩
  | .fail => .fail

/-- A table that refers to another one (KWT_TABREF, /repo/src/cfgparser.c:944-983): the parser for a keyword is the one in the first table, if there is one. -/
def bothFind {σ ω : Type} (f : Bytes → Option (LParser σ)) (g : Bytes → Option (LParser ω)) (name : Bytes) : Option (LParser (σ × ω)) :=
  match f name with
  | some p => some (onFst p)
  | none => (g name).map onSnd

/-! ### Listeners -/

/-- An option of HeaderOption, /repo/src/config.c:2977-3023: those of `forwarded` and `ssl` it concerns -/
inductive HdrOpt where
  | none
  | add (fwd ssl : Bool)
  | del (fwd ssl : Bool)
deriving DecidableEq, Repr

/-- What is done with the SSL_CTX of a certificate, /repo/src/config.c:3710-3770, 3778-3798, 3843-3945: the verification of clients (with its depth), the ciphers and the files
of certificates and revocations -/
inductive LCtxOp where
  | verify (mode depth : Int)
  | ciphers (list : Bytes)
  | caList (file : Bytes)
  | verifyList (file : Bytes)
  | crl (file : Bytes)
  | trust (cert : Bytes)
deriving DecidableEq, Repr

/-- POUND_CTX, /repo/src/pound.h: the file the certificate is from, and what was done since -/
structure LCtx where
  file : Bytes
  ops : List LCtxOp
deriving DecidableEq, Repr

/-- header_options, /repo/src/pound.h:871-873 -/
structure HdrOpts where
  fwd : Bool
  ssl : Bool
deriving DecidableEq, Repr

/-- The part of LISTENER, /repo/src/pound.h:862-898, that its own settings fill in.  The options of OpenSSL: `noProto` protocols are disabled, counted from SSLv2; SSL_OP_CIPHER_SERVER_PREFERENCE
and SSL_OP_ALLOW_UNSAFE_LEGACY_RENEGOTIATION are given by their bits in ssl_op_enable and ssl_op_disable.  The socket of SocketFrom is in `sock`. -/
structure LstSt where
  addrStr : Option Bytes
  portStr : Option Bytes
  sock : Option Bytes
  verb : Int
  to : Nat
  urlPat : Option Pattern
  err : Nat → Option Bytes
  maxReq : Int
  maxUri : Nat
  hdr : HdrOpts
  rewrLoc : Int
  rewrDest : Bool
  logLevel : Nat
  fwdHdr : Option Bytes
  ctxs : List LCtx
  clntCheck : Int
  noProto : Nat
  prefOn : Bool
  prefOff : Bool
  reneg : Int
  legacyOn : Bool
  legacyOff : Bool
  noHttps11 : Int

/-- POUND_DEFAULTS, /repo/src/config.c:168-182: what listeners take from it -/
structure LstDfl where
  to : Nat
  logLevel : Nat
  hdr : HdrOpts
  re : Dfl
deriving DecidableEq, Repr

/-- An address getaddrinfo gives: its family (AF_INET or AF_INET6), whether it is INADDR_ANY or in6addr_any, and the rest -/
structure GAddr where
  v6 : Bool
  any : Bool
  sock : Bytes
deriving DecidableEq, Repr

/-- What reading listeners depends on: expressions (see `CfgEnv`), getaddrinfo for a passive numeric host and a service (no addresses: it fails), the names of the log formats
defined so far, the texts of files, and the files of certificates that Cert loads (`none`: it fails) -/
structure LstEnv where
  cfg : CfgEnv
  gai : Option Bytes → Bytes → List GAddr
  formats : List Bytes
  file : Bytes → Option Bytes
  certs : Bytes → Option (List Bytes)
  caFile : Bytes → Bool
  verifyFile : Bytes → Bool
  crlFile : Bytes → Bool

/-- What statements in a listener say -/
inductive LstSet where
  | addr (h : Bytes)
  | port (p : Bytes)
  | sockFrom (path : Bytes)
  | xhttp (n : Int)
  | client (n : Nat)
  | checkUrl (p : Pattern)
  | err (code : Nat) (text : Bytes)
  | maxReq (n : Int)
  | maxUri (n : Nat)
  | hdrOpts (os : List HdrOpt)
  | rewrLoc (n : Int)
  | rewrDest (b : Bool)
  | logLevel (n : Nat)
  | fwdHdr (name : Bytes)
  | cert (files : List Bytes)
  | clientCert (mode depth : Int)
  | disable (n : Nat)
  | ciphers (list : Bytes)
  | honor (b : Bool)
  | reneg (n : Int)
  | caList (file : Bytes)
  | verifyList (file : Bytes)
  | crl (file : Bytes)
  | noHttps11 (n : Int)
deriving DecidableEq, Repr

/-- The parsers in http_common, http_deprecated and https_parsetab -/
inductive LstKw where
  | addr | port | sockFrom | xhttp | client | checkUrl | errFile | err (code : Nat) | maxReq | maxUri | hdrOpt | rewrLoc | rewrDest | logLevel | fwdHdr
  | cert | clientCert | disable | ciphers | honor | reneg | caList | verifyList | crl | noHttps11
deriving DecidableEq, Repr

/-- http_common and http_deprecated, /repo/src/config.c:3025-3234, without the statements that do not change these data: Service (C70, C71, C74), the modification
of requests (C71) and TrustedIP (C32) -/
def httpTable : List (Bytes × LstKw) :=
  [(b!"Address", .addr), (b!"Port", .port), (b!"SocketFrom", .sockFrom), (b!"xHTTP", .xhttp), (b!"Client", .client), (b!"CheckURL", .checkUrl), (b!"ErrorFile", .errFile),
   (b!"MaxRequest", .maxReq), (b!"MaxURI", .maxUri), (b!"HeaderOption", .hdrOpt), (b!"RewriteLocation", .rewrLoc), (b!"RewriteDestination", .rewrDest),
   (b!"LogLevel", .logLevel), (b!"ForwardedHeader", .fwdHdr), (b!"Err400", .err 400), (b!"Err401", .err 401), (b!"Err403", .err 403), (b!"Err404", .err 404),
   (b!"Err413", .err 413), (b!"Err414", .err 414), (b!"Err500", .err 500), (b!"Err501", .err 501), (b!"Err503", .err 503)]

/-- https_parsetab, /repo/src/config.c:3954-4018 -/
def httpsTable : List (Bytes × LstKw) :=
  httpTable ++ [(b!"Cert", .cert), (b!"ClientCert", .clientCert), (b!"Disable", .disable), (b!"Ciphers", .ciphers), (b!"SSLHonorCipherOrder", .honor),
   (b!"SSLAllowClientRenegotiation", .reneg), (b!"CAlist", .caList), (b!"VerifyList", .verifyList), (b!"CRLlist", .crl), (b!"NoHTTPS11", .noHttps11)]

/-- An option of HeaderOption: strcasecmp with none, strncasecmp with no-, and the table, /repo/src/config.c:2983-3012 -/
def hdrOptOf (name : Bytes) : Option HdrOpt :=
  if ciEq name b!"none" then some .none
  else
    let neg := ciEq (name.take 3) b!"no-"
    match kwToTok [(b!"forwarded", 1), (b!"ssl", 2), (b!"all", 3)] true (if neg then name.drop 3 else name) with
    | none => none
    | some n => some (if neg then .del (n % 2 = 1) (n / 2 = 1) else .add (n % 2 = 1) (n / 2 = 1))

/-- The loop in parse_header_options, /repo/src/config.c:2989-3020, with the newline it ends with -/
def hdrOptLoop : List Tok → Option (List HdrOpt × List Tok)
  | .nl :: r => some ([], r)
  | .ident s :: r => (hdrOptOf s).bind fun o => (hdrOptLoop r).map fun x => (o :: x.1, x.2)
  | .literal s :: r => (hdrOptOf s).bind fun o => (hdrOptLoop r).map fun x => (o :: x.1, x.2)
  | _ => none

/-- *opt, /repo/src/config.c:3002-3016 -/
def HdrOpts.app (h : HdrOpts) : HdrOpt → HdrOpts
  | .none => ⟨false, false⟩
  | .add f s => ⟨h.fwd || f, h.ssl || s⟩
  | .del f s => ⟨h.fwd && !f, h.ssl && !s⟩

/-- assign_port_string, /repo/src/config.c:196-207 -/
def portStrArg : Tok → Option Bytes
  | .ident s => some s
  | .string s => some s
  | .literal s => some s
  | .number s => some s
  | _ => none

/-- assign_CONTENT_LENGTH, /repo/src/config.c:277-294 -/
def clenArg : Tok → Option Int
  | .number s =>
    match strtoclen s 10 with
    | (rc, n, p) => if rc = 0 ∧ p = [] then some n else none
  | _ => none

/-- parse_log_level, /repo/src/config.c:2906-2946 -/
def logLvlArg (formats : List Bytes) : Tok → Option Nat
  | .string s => formats.findIdx? (· == s)
  | .number s => logLevelNum formats.length s
  | _ => none

/-- cfg_assign_string_from_file, /repo/src/cfgparser.c:1208-1248 -/
def fileArg (e : LstEnv) : Tok → Option Bytes
  | .string s => e.file s
  | _ => none

/-- A statement with one argument -/
def setArg1 {α : Type} (f : Tok → Option α) (mk : α → LstSet) : List Tok → Option (LstSet × List Tok)
  | t :: r => (f t).map fun v => (mk v, r)
  | [] => none

/-- The path of a socket, /repo/src/config.c:2803-2812 -/
def sockArg : Tok → Option Bytes
  | .string s => if s.length > unixPathMax then none else some s
  | _ => none

/-- A file that OpenSSL reads -/
def okFile (p : Bytes → Bool) : Tok → Option Bytes
  | .string s => if p s then some s else none
  | _ => none

/-- The arguments of statements: parsers in /repo/src/config.c:1745-1762, 2767-2832 and 3574-3952.  They may depend on the environment and the defaults only; what depends on
the listener is in `lstApply`. -/
def lstArg (e : LstEnv) (d : LstDfl) : LstKw → List Tok → Option (LstSet × List Tok)
  | .addr => setArg1 addrArg .addr
  | .port => setArg1 portStrArg .port
  | .sockFrom => setArg1 sockArg .sockFrom
  | .xhttp => setArg1 (fun t => resArg (assignRange 0 3 t)) .xhttp
  | .client => setArg1 (fun t => resArg (assignUnsigned t)) .client
  | .checkUrl => fun ts => (regexCompat e.cfg d.re.reType d.re.icase ts).map fun x => (.checkUrl x.1, x.2)
  | .errFile => fun ts =>
    match ts with
    | .number s :: r => (errorCode s).bind fun c => setArg1 (fileArg e) (.err c) r
    | _ => none
  | .err c => setArg1 (fileArg e) (.err c)
  | .maxReq => setArg1 clenArg .maxReq
  | .maxUri => setArg1 (fun t => resArg (assignUnsigned t)) .maxUri
  | .hdrOpt => fun ts => (hdrOptLoop ts).map fun x => (.hdrOpts x.1, x.2)
  | .rewrLoc => setArg1 (fun t => resArg (assignRange 0 2 t)) .rewrLoc
  | .rewrDest => setArg1 (fun t => resArg (assignBool t)) .rewrDest
  | .logLevel => setArg1 (logLvlArg e.formats) .logLevel
  | .fwdHdr => setArg1 strArg .fwdHdr
  | .cert => setArg1 (fun t => (strArg t).bind e.certs) .cert
  | .clientCert => fun ts =>
    match ts with
    | t :: r =>
      match resArg (assignRange 0 3 t) with
      | none => none
      | some m => if m > 0 then setArg1 (fun t => resArg (assignInt t)) (.clientCert m) r else some (.clientCert m 0, r)
    | [] => none
  | .disable => setArg1 protoArg .disable
  | .ciphers => setArg1 strArg .ciphers
  | .honor => setArg1 (fun t => resArg (assignBool t)) .honor
  | .reneg => setArg1 (fun t => resArg (assignRange 0 2 t)) .reneg
  | .caList => setArg1 (okFile e.caFile) .caList
  | .verifyList => setArg1 (okFile e.verifyFile) .verifyList
  | .crl => setArg1 (okFile e.crlFile) .crl
  | .noHttps11 => setArg1 (fun t => resArg (assignRange 0 2 t)) .noHttps11

/-- An operation on all contexts: the loops over ctx_head; refused if there is none -/
def LstSt.onCtxs (s : LstSt) (o : LCtxOp) : Option LstSt :=
  if s.ctxs = [] then none else some { s with ctxs := s.ctxs.map fun c => { c with ops := c.ops ++ [o] } }

/-- The assignments statements make -/
def lstApply : LstSet → LstSt → Option LstSt
  | .addr h, s => some { s with addrStr := some h }
  | .port p, s => some { s with portStr := some p }
  | .sockFrom p, s => if s.addrStr.isSome ∨ s.portStr.isSome then none else some { s with sock := some p }
  | .xhttp n, s => some { s with verb := n }
  | .client n, s => some { s with to := n }
  | .checkUrl p, s => if s.urlPat.isSome then none else some { s with urlPat := some p }
  | .err c t, s => some { s with err := fun k => if k = c then some t else s.err k }
  | .maxReq n, s => some { s with maxReq := n }
  | .maxUri n, s => some { s with maxUri := n }
  | .hdrOpts os, s => some { s with hdr := os.foldl HdrOpts.app s.hdr }
  | .rewrLoc n, s => some { s with rewrLoc := n }
  | .rewrDest b, s => some { s with rewrDest := b }
  | .logLevel n, s => some { s with logLevel := n }
  | .fwdHdr n, s => some { s with fwdHdr := some n }
  | .cert fs, s => some { s with ctxs := s.ctxs ++ fs.map fun f => ⟨f, []⟩ }
  | .clientCert m k, s => (s.onCtxs (.verify m k)).map fun s => { s with clntCheck := m }
  | .disable n, s => some { s with noProto := max s.noProto n }
  | .ciphers l, s => s.onCtxs (.ciphers l)
  | .honor b, s => some { s with prefOn := b, prefOff := !b }
  | .reneg n, s => some { s with reneg := n, legacyOn := n == 2, legacyOff := n != 2 }
  | .caList f, s => s.onCtxs (.caList f)
  | .verifyList f, s => s.onCtxs (.verifyList f)
  | .crl f, s => s.onCtxs (.crl f)
  | .noHttps11 n, s => some { s with noHttps11 := n }

/-- A table with End: http_parsetab or https_parsetab, /repo/src/config.c:3236-3257, 3954-4018 -/
def lstFind (e : LstEnv) (d : LstDfl) (tls : Bool) (name : Bytes) : Option (LParser LstSt) :=
  if ciEq b!"End" name then some endParser
  else (kwFind (if tls then httpsTable else httpTable) name).map fun k => setParser (lstArg e d k) (k = .hdrOpt) lstApply

/-- listener_alloc, /repo/src/config.c:3259-3280, and the options in parse_listen_https, :4087-4093 -/
def lstInit (d : LstDfl) : LstSt where
  addrStr := none
  portStr := none
  sock := none
  verb := 0
  to := d.to
  urlPat := none
  err := fun _ => none
  maxReq := 0
  maxUri := 0
  hdr := d.hdr
  rewrLoc := 1
  rewrDest := false
  logLevel := d.logLevel
  fwdHdr := none
  ctxs := []
  clntCheck := -1
  noProto := 0
  prefOn := false
  prefOff := false
  reneg := 0
  legacyOn := false
  legacyOff := true
  noHttps11 := 0

/-- Where a listener listens -/
inductive LAddr where
  | inet (a : GAddr)
  | sockFrom (path : Bytes)
deriving DecidableEq, Repr

/-- resolve_listener_address, /repo/src/config.c:3340-3381 -/
def lstResolve (e : LstEnv) (s : LstSt) (defsrv : Bytes) : Option LAddr :=
  match s.sock with
  | some p => some (.sockFrom p)
  | none =>
    match e.gai s.addrStr (s.portStr.getD defsrv) with
    | [] => none
    | [a] => some (.inet a)
    | a :: b :: _ => some (.inet (if a.v6 = false ∧ a.any ∧ b.v6 ∧ b.any then b else a))

/-- A listener that was read: LISTENER, /repo/src/pound.h:862-898; `other` is the rest of it. -/
structure Lst (ω : Type) where
  name : Option Bytes
  tls : Bool
  addr : LAddr
  st : LstSt
  other : ω

/-- flush_service_client_cert, /repo/src/config.c:4042-4070: `certs` are the certificates of the services' conditions. -/
def flushCerts (s : LstSt) (certs : List Bytes) : Option LstSt :=
  if certs = [] then some s
  else if s.clntCheck ≠ -1 then none
  else some { s with ctxs := s.ctxs.map fun c => { c with ops := c.ops ++ certs.map .trust ++ [.verify 3 (-1)] }, clntCheck := 3 }

/-- parse_listen_http and parse_listen_https after the section, /repo/src/config.c:3412-3424, 4098-4123 -/
def lstFinish (e : LstEnv) (tls : Bool) (certs : List Bytes) (s : LstSt) : Option (LAddr × LstSt) :=
  match lstResolve e s (if tls then b!"443" else b!"80") with
  | none => none
  | some a =>
    if tls then if s.ctxs = [] then none else (flushCerts s certs).map fun s => (a, s)
    else if certs = [] then some (a, s) else none

/-- parse_listen_http and parse_listen_https, /repo/src/config.c:3383-3425, 4072-4147.  `other` are the parsers of the statements that fill in the rest of the listener, `init`
is what it is at first, and `certs` are the certificates in the conditions of its services (foreach_client_cert, :3294-3338). -/
def listenParser {ω : Type} (e : LstEnv) (d : LstDfl) (other : Bytes → Option (LParser ω)) (init : ω) (certs : ω → List Bytes) (tls : Bool) (n : Nat) : LParser (List (Lst ω)) := fun s =>
  let go (name : Option Bytes) (ts : List Tok) : LR (List (Lst ω)) :=
    match cfgL (bothFind (lstFind e d tls) other) false true n ⟨(lstInit d, init), ts, s.errs⟩ with
    | .ok s2 =>
      match lstFinish e tls (certs s2.data.2) s2.data.1 with
      | none => .fail
      | some (a, st) => .ok ⟨s.data ++ [⟨name, tls, a, st, s2.data.2⟩], s2.toks, s2.errs⟩
    | _ => .fail
  match s.toks with
  | .string nm :: r => if s.data.any fun l => l.name == some nm then .fail else go (some nm) r
  | ts => go none ts

/-! ### Services of listeners, by their names and backends -/

/-- parse_service, /repo/src/config.c:2657-2697, with find_service_ident, :2625-2635: the name and the backends; the conditions and rules are in `parseService`. -/
def svcParser (e : BeEnv) (d : BeDfl) (algo : Algo) (n : Nat) : LParser (List (Option Bytes × SvcBes)) := fun s =>
  let go (name : Option Bytes) (ts : List Tok) : LR (List (Option Bytes × SvcBes)) :=
    match parseSvcBes e d algo n ts s.errs with
    | .ok s2 => .ok ⟨s.data ++ [(name, s2.data)], s2.toks, s2.errs⟩
    | _ => .fail
  match s.toks with
  | .string nm :: r => if s.data.any fun l => l.1 == some nm then .fail else go (some nm) r
  | ts => go none ts

/-- Service in http_common, /repo/src/config.c:3161-3165 -/
def svcStmtFind (e : BeEnv) (d : BeDfl) (algo : Algo) (n : Nat) (name : Bytes) : Option (LParser (List (Option Bytes × SvcBes))) :=
  if ciEq b!"Service" name then some (svcParser e d algo n) else none

end Pound
