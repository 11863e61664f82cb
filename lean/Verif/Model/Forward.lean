import Verif.Model.Location
import Verif.Model.Log
import Verif.Model.Bauth

/-!
What is done to the headers of a request before it is sent to a backend: /repo/src/http.c:3212-3391, 4160-4240, and the textual form of addresses,
/repo/src/svc.c:453-558.  Rewriting rules are in Model/Cond.lean.

Memory allocation succeeds.
-/

namespace Pound

/-- A socket address as getnameinfo and sun_path show it: the bytes of sun_path that the kernel returned (ai_addrlen tells how many), or the numeric host and port.
(getnameinfo does not fail: it is only asked for numbers.) -/
inductive PeerAddr where
  | unix (path : Bytes)
  | inet (host port : Bytes)
  | inet6 (host port : Bytes)
deriving DecidableEq, Repr

/-- addr2str, /repo/src/svc.c:453-513, for a buffer of `size` bytes.  Without any bytes of sun_path, the byte before the buffer is read (line 472) and, if it is 0, the
buffer is left uninitialised. -/
def addr2str (size : Nat) (a : PeerAddr) (noPort : Bool) : Res Bytes :=
  let withPort := fun (h port : Bytes) =>
    if noPort ∨ size - 1 - h.length = 0 then h else h ++ ch%':' :: port.take (size - 1 - h.length - 1)
  match a with
  | .unix p => if p.take (size - 1) = [] then .ub else .ok ((p.take (size - 1)).takeWhile notNul)
  | .inet h port => .ok (withPort (h.take (size - 1)) port)
  | .inet6 h port => .ok (withPort ((b!"[" ++ h ++ b!"]").take (size - 1)) port)

/-- MAX_ADDR_BUFSIZE, /repo/src/pound.h:62-70 -/
def maxAddrBuf : Nat := 1025 + 32 + 4

/-- http_header_list_append for several texts, ending with the first one that is refused -/
def addHeaders : List (Bytes × HMode) → List Header → Res (List Header)
  | [], hs => .ok hs
  | (t, m) :: r, hs =>
    match listAppend hs t m with
    | .ub => .ub
    | .ok (0, hs') => addHeaders r hs'
    | .ok (_ + 1, hs') => .ok hs'

/-- X-Forwarded-Port, /repo/src/http.c:3242-3264: for clients of the families AF_INET and AF_INET6, the port of the listener -/
def portTexts (peer : PeerAddr) (port : Nat) : List (Bytes × HMode) :=
  match peer with
  | .unix _ => []
  | _ => [(b!"X-Forwarded-Port: " ++ dec port, .replace)]

/-- add_forwarded_headers, /repo/src/http.c:3212-3267: the texts added, for a client at `peer`, whose address is shown as `addr` -/
def forwardedTexts (addr : Bytes) (tls : Bool) (peer : PeerAddr) (port : Nat) : List (Bytes × HMode) :=
  [(b!"X-Forwarded-For: " ++ addr, .append), (b!"X-Forwarded-Proto: " ++ (if tls then b!"https" else b!"http"), .replace)] ++ portTexts peer port

/-- strip_eol, /repo/src/http.c:1242-1254 -/
def stripEol : Bytes → Bytes
  | [] => []
  | c :: s => if c == 10 || (c == 13 && s.head? == some 10) then [] else c :: stripEol s

/-- set_header_from_bio, /repo/src/http.c:3269-3291: the header made of the next line of the BIO, if it can be read, and what remains to be read -/
def headerFromBio (name bio : Bytes) : List (Bytes × HMode) × Bytes :=
  match getLine bio maxBuf with
  | .ok l rest => ([(name ++ b!": " ++ trimWsL l, .replace)], rest)
  | .eof => ([], [])
  | .bad rest => ([], rest)
  | .tooLong rest => ([], rest)

/-- The loop over the lines of the certificate, /repo/src/http.c:3367-3373; the first argument bounds the number of lines -/
def pemLines : Nat → Bytes → List Bytes
  | 0, _ => []
  | f + 1, bio =>
    match getLine bio maxBuf with
    | .ok l rest => l :: pemLines f rest
    | _ => []

/-- The certificate of the client, as OpenSSL prints it -/
structure ClientCert where
  subject : Bytes
  issuer : Bytes
  notBefore : Bytes
  notAfter : Bytes
  serial : Int
  pem : Bytes
deriving DecidableEq, Repr

/-- What add_ssl_headers knows: version and description of the cipher, and the certificate of the client, if the listener asks for one -/
structure SslEnv where
  cipher : Option (Bytes × Bytes)
  /-- clnt_check > 0 -/
  check : Bool
  cert : Option ClientCert
deriving DecidableEq, Repr

/-- The part of add_ssl_headers for the certificate, /repo/src/http.c:3321-3380.  All is printed to the same BIO, so what one line leaves is found by the next one. -/
def certTexts (c : ClientCert) : List (Bytes × HMode) :=
  let s := headerFromBio b!"X-SSL-Subject" c.subject
  let i := headerFromBio b!"X-SSL-Issuer" (s.2 ++ c.issuer)
  let nb := headerFromBio b!"X-SSL-notBefore" (i.2 ++ c.notBefore)
  let na := headerFromBio b!"X-SSL-notAfter" (nb.2 ++ c.notAfter)
  let pem := na.2 ++ c.pem
  s.1 ++ i.1 ++ nb.1 ++ na.1 ++ [(b!"X-SSL-serial: " ++ decInt c.serial, .replace)] ++
    [(b!"X-SSL-certificate: " ++ List.intercalate [13, 10, 9] (pemLines (pem.length + 1) pem), .replace)]

/-- X-SSL-cipher, /repo/src/http.c:3304-3319 -/
def cipherTexts : Option (Bytes × Bytes) → List (Bytes × HMode)
  | some (v, d) => [(b!"X-SSL-cipher: " ++ v ++ b!"/" ++ stripEol d, .replace)]
  | none => []

/-- add_ssl_headers, /repo/src/http.c:3293-3391: the texts added.  (The value of a header that extends over several lines is taken to be all of them; the
regular expression HEADER takes the first one.  Nothing but look-ups of the value of X-SSL-certificate depends on it.) -/
def sslTexts (e : SslEnv) : List (Bytes × HMode) :=
  cipherTexts e.cipher ++
  (match e.cert with
   | some c => if e.check then certTexts c else []
   | none => [])

/-- The Destination header, /repo/src/http.c:4166-4202: the first one with that code gets a new text if it looks like a URL. -/
def changeDest (be : Bytes) (tls : Bool) : List Header → Res (List Header)
  | [] => .ok []
  | h :: r =>
    if h.code = .destination then
      match h.value with
      | .ub => .ub
      | .ok v =>
        match locationMatch v with
        | none => .ok (h :: r)
        | some (_, _, path) => .ok (h.change (b!"Destination: " ++ (if tls then b!"https" else b!"http") ++ b!"://" ++ be ++ path) :: r)
    else
      match changeDest be tls r with
      | .ub => .ub
      | .ok r' => .ok (h :: r')

/-- The settings used when a request is forwarded: of the listener (RewriteDestination, HeaderOptions, its port), of the client's connection (address, TLS), and of the backend (its
address as text, whether it uses TLS, ServerName) -/
structure FwdCfg where
  rewrDest : Bool
  forwarded : Bool
  ssl : Bool
  peer : PeerAddr
  port : Nat
  /-- `none`: the client does not use TLS. -/
  tls : Option SslEnv
  beAddr : Bytes
  beTls : Bool
  servername : Option Bytes
deriving DecidableEq, Repr

/-- The headers for TLS: only if the client uses it and they are not switched off, /repo/src/http.c:4216-4220 -/
def tlsTexts (c : FwdCfg) : List (Bytes × HMode) :=
  match c.tls with
  | some e => if c.ssl then sslTexts e else []
  | none => []

/-- The forwarding headers, unless they are switched off, /repo/src/http.c:4210-4214 -/
def fwdTexts (c : FwdCfg) : Res (List (Bytes × HMode)) :=
  if c.forwarded then
    match addr2str maxAddrBuf c.peer true with
    | .ub => .ub
    | .ok addr => .ok (forwardedTexts addr c.tls.isSome c.peer c.port)
  else .ok []

/-- Host, /repo/src/http.c:4222-4239 -/
def hostTexts : Option Bytes → List (Bytes × HMode)
  | some n => [(b!"Host: " ++ n, .replace)]
  | none => []

/-- The first part of send_to_backend, /repo/src/http.c:4160-4240, up to the rewriting rules.  Errors of add_forwarded_headers and add_ssl_headers are only logged.
(The Host header can't be refused, see `host_ok` in Proof/Forward.lean, so there is no error reply.) -/
def forwardHead (c : FwdCfg) (hs : List Header) : Res (List Header) :=
  match (if c.rewrDest then changeDest c.beAddr c.beTls hs else .ok hs) with
  | .ub => .ub
  | .ok hs1 =>
    match fwdTexts c with
    | .ub => .ub
    | .ok f =>
      match addHeaders f hs1 with
      | .ub => .ub
      | .ok hs2 =>
        match addHeaders (tlsTexts c) hs2 with
        | .ub => .ub
        | .ok hs3 => addHeaders (hostTexts c.servername) hs3

end Pound
