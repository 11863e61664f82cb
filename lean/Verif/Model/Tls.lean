import Verif.Model.Basic

/-!
TLS connections: renegotiation (/repo/src/svc.c:3029-3059, /repo/src/http.c:1483-1646, 4547-4570), choice of the certificate
(/repo/src/config.c:3443-3478, 3510-3578, 3668-3708).

OpenSSL is not modelled: events it reports and states it is in are arbitrary.
-/

namespace Pound

/-- RENEG_STATE, /repo/src/pound.h:947-955 -/
inductive Reneg where
  | init | reject | allow | abort
deriving DecidableEq, Repr

/-- The initial state of a connection, /repo/src/http.c:4547-4550; `allow` is AllowClientRenegotiation. -/
def renegStart (allow : Nat) : Reneg := if allow ≠ 0 then .allow else .init

/-- SSL_CB_ACCEPT_LOOP (openssl/ssl.h): SSL_ST_ACCEPT | SSL_CB_LOOP -/
def cbAcceptLoop : Nat := 0x2001
/-- SSL_CB_HANDSHAKE_DONE -/
def cbHandshakeDone : Nat := 0x20
/-- SSL3_ST_SR_CLNT_HELLO_A and SSL23_ST_SR_CLNT_HELLO_A, /repo/src/svc.c:3022-3027 -/
def stClientHello : List Nat := [0x2110, 0x2210]

/-- A call of the information callback: `where`, and what SSL_get_state returns -/
structure InfoEv where
  wh : Nat
  state : Nat
deriving DecidableEq, Repr

/-- SSLINFO_callback, /repo/src/svc.c:3029-3059 -/
def sslInfo (s : Reneg) (e : InfoEv) : Reneg :=
  if e.wh &&& cbAcceptLoop ≠ 0 ∧ s = .reject then
    if e.state ∈ stClientHello then .abort else s
  else if e.wh &&& cbHandshakeDone ≠ 0 ∧ s = .init then .reject
  else s

/-- What a call of poll tells: ready, an error or hang-up only, timeout, interrupted, failed -/
inductive PollRes where
  | ready | otherEvent | timeout | intr | fail
deriving DecidableEq, Repr

/-- What bio_callback makes of a read or write: it is carried out, or fails at once -/
inductive IoRes where
  /-- the operation is performed -/
  | go
  /-- -1 with ETIMEDOUT: a time-out occurred before -/
  | timedOutBefore
  /-- -1 with ECONNABORTED -/
  | aborted
  /-- -1 with EIO or ECONNRESET -/
  | broken
  /-- 0 with ETIMEDOUT -/
  | timedOut
  /-- -2 -/
  | pollFailed
  /-- still waiting -/
  | waiting
  /-- overflow of int: undefined -/
  | undefined
deriving DecidableEq, Repr

/-- The loop of bio_callback around poll, /repo/src/http.c:1547-1624 -/
def pollLoop : List PollRes → IoRes
  | [] => .waiting
  | .ready :: _ => .go
  | .otherEvent :: _ => .broken
  | .timeout :: _ => .timedOut
  | .intr :: r => pollLoop r
  | .fail :: _ => .pollFailed

/-- bio_callback for reading or writing, /repo/src/http.c:1509-1625: `timeout` is bio_arg->timeout; the result, and its new value -/
def bioCallback (timeout : Int) (s : Reneg) (polls : List PollRes) : IoRes × Int :=
  if timeout * 1000 < -(2 ^ 31) ∨ 2 ^ 31 ≤ timeout * 1000 then (.undefined, timeout)
  else if timeout * 1000 < 0 then (.timedOutBefore, timeout)
  else if s = .abort then (.aborted, timeout)
  else if timeout * 1000 = 0 then (.go, timeout)
  else
    let r := pollLoop polls
    (r, if r = .timedOut then -1 else timeout)

/-- What happens on a connection: a callback from the handshake, or a read or write -/
inductive ConnEv where
  | info (e : InfoEv)
  | io (polls : List PollRes)
deriving DecidableEq, Repr

structure ConnSt where
  reneg : Reneg
  timeout : Int
deriving DecidableEq, Repr

/-- One event, and the result if it is a read or write -/
def ConnSt.step (c : ConnSt) : ConnEv → ConnSt × Option IoRes
  | .info e => ({ c with reneg := sslInfo c.reneg e }, none)
  | .io polls =>
    let r := bioCallback c.timeout c.reneg polls
    ({ c with timeout := r.2 }, some r.1)

/-- A history of events: the state, and the results of the reads and writes -/
def ConnSt.run (c : ConnSt) : List ConnEv → ConnSt × List IoRes
  | [] => (c, [])
  | e :: r =>
    let s := c.step e
    let t := s.1.run r
    (t.1, s.2.toList ++ t.2)

/-- do_http, /repo/src/http.c:4547-4570, and set_callback, :1627-1646: a new connection on a listener with these settings.  `timeout` is unsigned and converted to int. -/
def newConn (allow : Nat) (timeout : Nat) : ConnSt := ⟨renegStart allow, if timeout < 2 ^ 31 then timeout else (timeout : Int) - 2 ^ 32⟩

/-! ### Certificates -/

/-- POUND_CTX, /repo/src/pound.h:836-843: `name` and `alt` are the patterns, `ctx` identifies the certificate. -/
structure PoundCtx where
  ctx : Nat
  name : Bytes
  alt : List Bytes
deriving DecidableEq, Repr

/-- What load_cert makes of a certificate, /repo/src/config.c:3535-3570: the common names in order, the alternative names of type DNS in the order of
the certificate, of which the last is taken first (:3453-3463).  `none`: refused, because there is no common name. -/
def loadCert (ctx : Nat) (cns : List Bytes) (san : List Bytes) : Option PoundCtx :=
  match cns with
  | [] => none
  | n :: r => some ⟨ctx, n, r ++ san.reverse⟩

/-- The certificates of a listener, in the order of their Cert statements: SLIST_PUSH appends, /repo/src/config.c:3576.  `none`: the configuration is refused. -/
def loadCerts : List (Nat × List Bytes × List Bytes) → Option (List PoundCtx)
  | [] => some []
  | (c, cns, san) :: r =>
    match loadCert c cns san, loadCerts r with
    | some x, some l => some (x :: l)
    | _, _ => none

/-- SNI_server_name, /repo/src/config.c:3669-3708: the context of the connection afterwards; `cur` is that of the connection before, `fnm` is fnmatch. -/
def sniLoop (fnm : Bytes → Bytes → Bool) (name : Bytes) : List PoundCtx → Option Nat
  | [] => none
  | pc :: r => if fnm pc.name name then some pc.ctx else if pc.alt.any (fnm · name) then some pc.ctx else sniLoop fnm name r

def sniServerName (fnm : Bytes → Bytes → Bool) (cur : Nat) (name : Option Bytes) (cs : List PoundCtx) : Res Nat :=
  match name with
  | none => .ok cur
  | some n =>
    match sniLoop fnm n cs with
    | some c => .ok c
    | none =>
      match cs with
      | [] => .ub
      | pc :: _ => .ok pc.ctx

/-- do_http, /repo/src/http.c:4563-4570: a TLS connection starts with the first certificate. -/
def connCert (fnm : Bytes → Bytes → Bool) (name : Option Bytes) (cs : List PoundCtx) : Res Nat :=
  match cs with
  | [] => .ub
  | pc :: _ => sniServerName fnm pc.ctx name cs

end Pound
