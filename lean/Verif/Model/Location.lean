import Verif.Model.Acl
import Verif.Model.Control
import Verif.Model.Exchange

/-!
Rewriting of Location headers: /repo/src/svc.c:1294-1502, /repo/src/http.c:3772-3829.

Memory allocation succeeds.  Header values contain no newline and no NUL.
-/

namespace Pound

/-- A socket address, as compared by memcmp: family (2: AF_INET, 10: AF_INET6, others), port, and everything else.  Ports are in host order. -/
structure SockA where
  fam : Nat
  port : Nat
  host : Bytes
deriving DecidableEq, Repr

/-- sun_set_port, /repo/src/svc.c:1308-1322 -/
def SockA.setPort (a : SockA) (p : Nat) : SockA := if a.fam = 2 ∨ a.fam = 10 then { a with port := p } else a

/-- is_proto, /repo/src/svc.c:1294-1299 -/
def isProto (pat proto : Bytes) : Bool := ciEq proto pat

/-- The part of BACKEND (/repo/src/pound.h:508-537) that need_rewrite uses; `tls`: ctx is not NULL -/
structure LocBe where
  addr : SockA
  servername : Option Bytes
  tls : Bool
deriving DecidableEq, Repr

/-- is_backend_address, /repo/src/svc.c:1324-1346 -/
def isBackendAddress (addrs : List SockA) (port : Nat) (be : LocBe) : Bool := addrs.any fun a => a.fam == be.addr.fam && a.setPort port == be.addr

/-- is_listener_address, /repo/src/svc.c:1348-1374: only addresses of another family are compared. -/
def isListenerAddress (addrs : List SockA) (l : SockA) : Bool := addrs.any fun a => a.fam != l.fam && a.setPort 0 == l.setPort 0

/-- A match of "(http|https)://([^/]+)(.*)" at the beginning of the text: the three groups -/
def locationAt (s : Bytes) : Option (Bytes × Bytes × Bytes) :=
  if ciEq (s.take 7) b!"http://" ∧ (s.drop 7).takeWhile notSlash ≠ [] then some (s.take 4, (s.drop 7).takeWhile notSlash, (s.drop 7).dropWhile notSlash)
  else if ciEq (s.take 8) b!"https://" ∧ (s.drop 8).takeWhile notSlash ≠ [] then some (s.take 5, (s.drop 8).takeWhile notSlash, (s.drop 8).dropWhile notSlash)
  else none

/-- LOCATION, /repo/src/pound.c:1134-1136: the leftmost match, anywhere in the text -/
def locationMatch : Bytes → Option (Bytes × Bytes × Bytes)
  | [] => none
  | c :: t =>
    match locationAt (c :: t) with
    | some r => some r
    | none => locationMatch t

/-- htons (atoi (s)) -/
def portOf (s : Bytes) : Nat := (intOfLong (strtol10 s).1 % 65536).toNat

/-- The port of the location, /repo/src/svc.c:1448-1456; `host` is the second group. -/
def locPort (proto host : Bytes) : Nat :=
  match host.dropWhile notColon with
  | _ :: p => portOf p
  | [] => if isProto b!"https" proto then 443 else 80

/-- Parameters of need_rewrite: RewriteLocation, the listener's address and whether it uses TLS, the backend, and the look-up of host names (with or without DNS).
`lport` is what listener_port (/repo/src/svc.c:1376-1390) returns: it takes the bytes of a pointer for a socket address, so its result is
not related to the listener's port. -/
structure LocEnv where
  mode : Nat
  lstn : SockA
  ltls : Bool
  lport : Nat
  be : LocBe
  lookup : Bytes → Option (List SockA)

/-- Whether the location points to the backend, /repo/src/svc.c:1473-1482 -/
def locToBackend (e : LocEnv) (proto host : Bytes) (port : Nat) : Bool :=
  match e.lookup host with
  | some as => isBackendAddress as port e.be
  | none =>
    match e.be.servername with
    | some n => ciEq host n && isProto (if e.be.tls then b!"https" else b!"http") proto
    | none => false

/-- need_rewrite, /repo/src/svc.c:1409-1502: the path, if the location has to be rewritten -/
def needRewrite (e : LocEnv) (vhost location : Bytes) : Option Bytes :=
  if e.mode = 0 then none
  else if e.be.addr.fam ≠ 2 ∧ e.be.addr.fam ≠ 10 then none
  else
    match locationMatch location with
    | none => none
    | some (proto, hp, rest) =>
      let path := if rest.head? = some ch%'/' then rest.drop 1 else rest
      let host := hp.takeWhile notColon
      let port := locPort proto hp
      let addr := e.lookup host
      let toListener :=
        e.mode == 1 &&
          (isListenerAddress (addr.getD []) e.lstn || ciEq host (vhost.takeWhile notColon) || port != e.lport ||
            !isProto (if e.ltls then b!"https" else b!"http") proto)
      if locToBackend e proto host port || toListener then some path else none

/-- The new text of the header, /repo/src/http.c:3775-3796, 3804-3826: `vhost` is the Host of the request, `ssl`: whether the client uses TLS. -/
def locText (e : LocEnv) (ssl : Bool) (vhost : Option Bytes) (code : HCode) (val : Bytes) : Option Bytes :=
  match vhost with
  | none => none
  | some v =>
    if e.mode = 0 ∨ v = [] then none
    else
      match needRewrite e v val with
      | none => none
      | some path =>
        some ((if code = .location then b!"Location: " else b!"Content-location: ") ++ (if ssl then b!"https" else b!"http") ++ b!"://" ++ v ++ b!"/" ++ path)

end Pound
