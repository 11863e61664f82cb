import Verif.Model.SvcCfg
import Verif.Model.Balance
import Verif.Model.Location

/-!
Backends in a configuration: /repo/src/config.c:66-320, 694-1123, 1628-1743, 2426-2443, 4290-4329, 4686-5022.

As in Model/SvcCfg.lean the input is given by its tokens.  Looking up ports and hosts, loading certificates and reading files are parameters.  A missing argument
(a newline) is taken as refused (see C46 for the undefined shift).  Memory allocation succeeds; locations are not modelled.
-/

namespace Pound

/-- Resolve, /repo/src/config.c:848-854 -/
inductive ResolveMode where
  | immediate | first | all | srv
deriving DecidableEq, Repr

/-- Family, /repo/src/config.c:212-218 -/
inductive AddrFam where
  | any | unix | inet | inet6
deriving DecidableEq, Repr

/-- What is done with an SSL_CTX after its creation, /repo/src/config.c:732-846: `disable n` sets the options of the first `n` protocols of the table in set_proto_opt -/
inductive CtxOp where
  | cert (file : Bytes)
  | ciphers (list : Bytes)
  | disable (n : Nat)
deriving DecidableEq, Repr

/-- struct be_matrix, /repo/src/pound.h:484-508: the port is in host order, 0 if not given; a NULL pointer is `none`; the table, job and parent of dynamic backends
are in Model/DynBe.lean. -/
structure Mtx where
  host : Option Bytes
  port : Nat
  family : AddrFam
  resolve : ResolveMode
  retry : Nat
  ignoreWeight : Bool
  ttl : Nat
  to : Nat
  connTo : Nat
  wsTo : Nat
  ctx : Option (List CtxOp)
  sni : Option Bytes
deriving DecidableEq, Repr

/-- The part of BACKEND, /repo/src/pound.h:543-577, that a Backend section fills in; -1 in `disabled` and `prio` has a meaning in references. -/
structure BeSt where
  prio : Int
  disabled : Int
  m : Mtx
deriving DecidableEq, Repr

/-- POUND_DEFAULTS, /repo/src/config.c:168-182: be_to, be_connto and ws_to -/
structure BeDfl where
  to : Nat
  connTo : Nat
  wsTo : Nat
deriving DecidableEq, Repr

/-- What reading backends depends on: getaddrinfo for ports, which certificates can be used, and the files of error texts (`none` if they cannot be read or are empty) -/
structure BeEnv where
  port : Bytes → Option Nat
  cert : Bytes → Bool
  file : Bytes → Option Bytes

/-! ### Statements in Backend sections -/

/-- assign_address_string, /repo/src/config.c:184-194 -/
def addrArg : Tok → Option Bytes
  | .ident s => some s
  | .string s => some s
  | .literal s => some s
  | _ => none

/-- assign_port_int, assign_port_generic, /repo/src/config.c:223-275 -/
def portArg (e : BeEnv) : Tok → Option Nat
  | .ident s => e.port s
  | .number s => e.port s
  | _ => none

/-- cfg_assign_int_enum, /repo/src/cfgparser.c:1361-1374, after gettkn_expect (T_IDENT) -/
def enumArg (tab : List (Bytes × Nat)) : Tok → Option Nat
  | .ident s => kwToTok tab false s
  | _ => none

/-- assign_address_family, /repo/src/config.c:209-221 -/
def famArg (t : Tok) : Option AddrFam :=
  match enumArg [(b!"any", 0), (b!"unix", 1), (b!"inet", 2), (b!"inet6", 3)] t with
  | some 0 => some .any
  | some 1 => some .unix
  | some 2 => some .inet
  | some _ => some .inet6
  | none => none

/-- assign_resolve_mode, /repo/src/config.c:848-877, with support for dynamic backends -/
def resolveArg (t : Tok) : Option ResolveMode :=
  match enumArg [(b!"immediate", 0), (b!"first", 1), (b!"all", 2), (b!"srv", 3)] t with
  | some 0 => some .immediate
  | some 1 => some .first
  | some 2 => some .all
  | some _ => some .srv
  | none => none

/-- set_proto_opt, /repo/src/config.c:798-826: how many protocols, counted from SSLv2 -/
def protoArg (t : Tok) : Option Nat :=
  enumArg [(b!"SSLv2", 1), (b!"SSLv3", 2), (b!"TLSv1", 3), (b!"TLSv1_1", 4), (b!"TLSv1_2", 5)] t

/-- cfg_assign_string, /repo/src/cfgparser.c:1196-1206 -/
def strArg : Tok → Option Bytes
  | .string s => some s
  | _ => none

/-- A setter: see C46 and C64 for their values. -/
def resArg {α : Type} : Res (Option α) → Option α
  | .ok x => x
  | .ub => none

/-- The parsers in backend_parsetab -/
inductive BeKw where
  | addr | port | family | resolve | ignoreWeight | ttl | retry | prio | to | wsTo | connTo | https | cert | ciphers | disable | disabled | sni
deriving DecidableEq, Repr

/-- backend_parsetab, /repo/src/config.c:879-967, without End -/
def beTable : List (Bytes × BeKw) :=
  [(b!"Address", .addr), (b!"Port", .port), (b!"Family", .family), (b!"Resolve", .resolve), (b!"IgnoreSRVWeight", .ignoreWeight), (b!"OverrideTTL", .ttl),
   (b!"RetryInterval", .retry), (b!"Priority", .prio), (b!"TimeOut", .to), (b!"WSTimeOut", .wsTo), (b!"ConnTO", .connTo), (b!"HTTPS", .https), (b!"Cert", .cert),
   (b!"Ciphers", .ciphers), (b!"Disable", .disable), (b!"Disabled", .disabled), (b!"ServerName", .sni)]

/-- use_backend_parsetab, /repo/src/config.c:969-985, without End -/
def useBeTable : List (Bytes × BeKw) := [(b!"Priority", .prio), (b!"Disabled", .disabled)]

/-- The assignment a statement makes with the value of its argument -/
def beSet (e : BeEnv) (k : BeKw) (t : Tok) (s : BeSt) : Option BeSt :=
  match k with
  | .addr => (addrArg t).map fun v => { s with m := { s.m with host := some v } }
  | .port => (portArg e t).map fun v => { s with m := { s.m with port := v } }
  | .family => (famArg t).map fun v => { s with m := { s.m with family := v } }
  | .resolve => (resolveArg t).map fun v => { s with m := { s.m with resolve := v } }
  | .ignoreWeight => (resArg (assignBool t)).map fun v => { s with m := { s.m with ignoreWeight := v } }
  | .ttl => (resArg (assignUnsigned t)).map fun v => { s with m := { s.m with ttl := v } }
  | .retry => (resArg (assignUnsigned t)).map fun v => { s with m := { s.m with retry := v } }
  | .prio => (resArg (assignRange 1 (-1) t)).map fun v => { s with prio := v }
  | .to => (resArg (assignUnsigned t)).map fun v => { s with m := { s.m with to := v } }
  | .wsTo => (resArg (assignUnsigned t)).map fun v => { s with m := { s.m with wsTo := v } }
  | .connTo => (resArg (assignUnsigned t)).map fun v => { s with m := { s.m with connTo := v } }
  | .https => none
  | .cert =>
    match s.m.ctx, strArg t with
    | some l, some f => if e.cert f then some { s with m := { s.m with ctx := some (l ++ [.cert f]) } } else none
    | _, _ => none
  | .ciphers =>
    match s.m.ctx, strArg t with
    | some l, some f => some { s with m := { s.m with ctx := some (l ++ [.ciphers f]) } }
    | _, _ => none
  | .disable =>
    match s.m.ctx, protoArg t with
    | some l, some n => some { s with m := { s.m with ctx := some (l ++ [.disable n]) } }
    | _, _ => none
  | .disabled => (resArg (assignBool t)).map fun v => { s with disabled := if v then 1 else 0 }
  | .sni => (strArg t).map fun v => { s with m := { s.m with sni := some v } }

/-- A statement in a Backend section: HTTPS (backend_parse_https, /repo/src/config.c:694-730) has no argument. -/
def beParser (e : BeEnv) (k : BeKw) : LParser BeSt := fun s =>
  if k = .https then .ok { s with data := { s.data with m := { s.data.m with ctx := some [] } } }
  else
    match s.toks with
    | [] => .fail
    | t :: r =>
      match beSet e k t s.data with
      | none => .fail
      | some d => .ok { s with data := d, toks := r }

/-- A table with End and the keywords of `tab` -/
def beFind (e : BeEnv) (tab : List (Bytes × BeKw)) (name : Bytes) : Option (LParser BeSt) :=
  if ciEq b!"End" name then some endParser else (kwFind tab name).map (beParser e)

/-- backend_create and parse_backend_internal before the section is read, /repo/src/config.c:69-84, 1015-1018 -/
def beInit (d : BeDfl) : BeSt := ⟨5, 0, ⟨none, 0, .any, .immediate, 0, false, 0, d.to, d.connTo, d.wsTo, none, none⟩⟩

/-- parse_backend_internal, /repo/src/config.c:1008-1028 -/
def parseBackendInternal (e : BeEnv) (d : BeDfl) (n : Nat) (toks : List Tok) (errs : Nat) : LR BeSt :=
  cfgL (beFind e beTable) false true n ⟨beInit d, toks, errs⟩

/-! ### Backends of a service -/

/-- The union in BACKEND, /repo/src/pound.h:566-575, as it is before service_finalize; the status of an error is its code. -/
inductive BeDeclV where
  | mtx (m : Mtx)
  | ref (name : Bytes)
  | redirect (code : Nat) (url : Bytes) (hasUri : Nat)
  | error (status : Nat) (text : Option Bytes)
  | control
  | metrics
deriving DecidableEq, Repr

/-- BACKEND, /repo/src/pound.h:543-577 -/
structure BeDecl where
  prio : Int
  disabled : Int
  v : BeDeclV
deriving DecidableEq, Repr

/-- BALANCER, /repo/src/pound.h:784-796: its weight and backends -/
structure CGrp where
  weight : Nat
  bes : List BeDecl
deriving DecidableEq, Repr

/-- balancer_list_get, /repo/src/svc.c:3134-3158, and balancer_add_backend, /repo/src/pound.h:1082-1086 -/
def addBackend (w : Nat) (b : BeDecl) : List CGrp → List CGrp
  | [] => [⟨w, [b]⟩]
  | g :: t =>
    if w = g.weight then { g with bes := g.bes ++ [b] } :: t
    else if w < g.weight then ⟨w, [b]⟩ :: g :: t
    else g :: addBackend w b t

/-- BALANCER_WEIGTH_MAX, /repo/src/pound.h:1097; the weight of the other group is 0 (:1099-1109). -/
def emergWeight : Nat := 65535

/-- The part of SERVICE, /repo/src/pound.h:801-830, that backends are stored in -/
structure SvcBes where
  algo : Algo
  groups : List CGrp
deriving DecidableEq, Repr

/-- Appending a backend to the normal group -/
def SvcBes.add (s : SvcBes) (b : BeDecl) : SvcBes := { s with groups := addBackend 0 b s.groups }

/-- http_status_to_pound, /repo/src/http.c:172-181, as the code it finds (see `statusInfo`); the numbers are those in the table. -/
def errorCode (s : Bytes) : Option Nat :=
  [200, 400, 401, 403, 404, 405, 413, 414, 500, 501, 503].find? fun (c : Nat) => (c : Int) = intOfLong (strtol10 s).1

/-- The text of a redirection, /repo/src/config.c:1678-1686: `none` if it is refused; a path that is a single slash is cut off (the path extends to the end of the text). -/
def redirectUrl (u : Bytes) : Option (Bytes × Nat) :=
  match locationMatch u with
  | none => none
  | some (_, _, p) => some (if p.length = 1 then u.take (u.length - 1) else u, p.length)

/-- The statements of a service that define backends -/
inductive SvcBeKw where
  | redirect | error | backend | useBackend | emergency | metrics | control | balancer
deriving DecidableEq, Repr

/-- Some entries of service_parsetab, /repo/src/config.c:2503-2623 -/
def svcBeTable : List (Bytes × SvcBeKw) :=
  [(b!"Redirect", .redirect), (b!"Error", .error), (b!"Backend", .backend), (b!"UseBackend", .useBackend), (b!"Emergency", .emergency), (b!"Metrics", .metrics),
   (b!"Control", .control), (b!"Balancer", .balancer)]

/-- parse_redirect_backend, /repo/src/config.c:1628-1691 -/
def redirectParser : LParser SvcBes := fun s =>
  let go (code : Nat) (ts : List Tok) : LR SvcBes :=
    match ts with
    | .string u :: r =>
      match redirectUrl u with
      | none => .fail
      | some (u', k) => .ok { s with data := s.data.add ⟨1, 0, .redirect code u' k⟩, toks := r }
    | _ => .fail
  match s.toks with
  | .number c :: r =>
    match redirectCode c with
    | none => .fail
    | some code => go code r
  | ts => go 302 ts

/-- parse_error_backend, /repo/src/config.c:1693-1743 -/
def errorParser (e : BeEnv) : LParser SvcBes := fun s =>
  match s.toks with
  | .number c :: r =>
    match errorCode c with
    | none => .fail
    | some code =>
      match r with
      | .string f :: r2 =>
        match e.file f with
        | none => .fail
        | some text => .ok { s with data := s.data.add ⟨1, 0, .error code (some text)⟩, toks := r2 }
      | .nl :: r2 => .nonl { s with data := s.data.add ⟨1, 0, .error code none⟩, toks := r2 }
      | _ => .fail
  | _ => .fail

/-- parse_backend, /repo/src/config.c:1030-1066 -/
def backendParser (e : BeEnv) (d : BeDfl) (n : Nat) : LParser SvcBes := fun s =>
  match s.toks with
  | [] => .fail
  | .eof :: _ => .fail
  | .error :: _ => .fail
  | .string name :: r =>
    match cfgL (beFind e useBeTable) false true n ⟨{ beInit d with prio := -1, disabled := -1 }, r, s.errs⟩ with
    | .ok s2 => .ok ⟨s.data.add ⟨s2.data.prio, s2.data.disabled, .ref name⟩, s2.toks, s2.errs⟩
    | _ => .fail
  | ts =>
    match parseBackendInternal e d n ts s.errs with
    | .ok s2 => .ok ⟨s.data.add ⟨s2.data.prio, s2.data.disabled, .mtx s2.data.m⟩, s2.toks, s2.errs⟩
    | _ => .fail

/-- parse_emergency, /repo/src/config.c:1087-1105 -/
def emergencyParser (e : BeEnv) (n : Nat) : LParser SvcBes := fun s =>
  match parseBackendInternal e ⟨120, 120, 120⟩ n s.toks s.errs with
  | .ok s2 => .ok ⟨{ s.data with groups := addBackend emergWeight ⟨s2.data.prio, s2.data.disabled, .mtx s2.data.m⟩ s.data.groups }, s2.toks, s2.errs⟩
  | _ => .fail

/-- parse_balancer, /repo/src/config.c:2425-2443 -/
def balancerArg (t : Tok) : Option Algo :=
  if isUnqTok t then if ciEq t.text b!"random" then some .random else if ciEq t.text b!"iwrr" then some .iwrr else none
  else none

/-- The parsers of these statements; UseBackend, Control and Metrics: /repo/src/config.c:1068-1085, 1107-1123 -/
def svcBeParser (e : BeEnv) (d : BeDfl) (n : Nat) : SvcBeKw → LParser SvcBes
  | .redirect => redirectParser
  | .error => errorParser e
  | .backend => backendParser e d n
  | .useBackend => fun s =>
    match s.toks with
    | .string name :: r => .ok { s with data := s.data.add ⟨5, 0, .ref name⟩, toks := r }
    | _ => .fail
  | .emergency => emergencyParser e n
  | .metrics => fun s => .ok { s with data := s.data.add ⟨1, 0, .metrics⟩ }
  | .control => fun s => .ok { s with data := s.data.add ⟨1, 0, .control⟩ }
  | .balancer => fun s =>
    match s.toks with
    | [] => .fail
    | t :: r => match balancerArg t with
      | none => .fail
      | some a => .ok { s with data := { s.data with algo := a }, toks := r }

/-- service_parsetab, /repo/src/config.c:2503-2623, as far as backends are concerned.  The other statements do not change any of this. -/
def svcBeFind (e : BeEnv) (d : BeDfl) (n : Nat) (name : Bytes) : Option (LParser SvcBes) :=
  if ciEq b!"End" name then some endParser else (kwFind svcBeTable name).map (svcBeParser e d n)

/-- The section of a service in parse_service, /repo/src/config.c:2657-2697, after its name -/
def parseSvcBes (e : BeEnv) (d : BeDfl) (algo : Algo) (n : Nat) (toks : List Tok) (errs : Nat) : LR SvcBes :=
  cfgL (svcBeFind e d n) false true n ⟨⟨algo, []⟩, toks, errs⟩

/-! ### Named backends -/

/-- NAMED_BACKEND, /repo/src/config.c:98-106 -/
structure NamedBe where
  name : Bytes
  prio : Int
  disabled : Int
  m : Mtx
deriving DecidableEq, Repr

/-- parse_named_backend, /repo/src/config.c:4290-4329, with named_backend_insert, :136-157: names are compared with strcmp. -/
def namedParser (e : BeEnv) (d : BeDfl) (n : Nat) : LParser (List NamedBe) := fun s =>
  match s.toks with
  | .string name :: r =>
    match parseBackendInternal e d n r s.errs with
    | .ok s2 =>
      if s.data.any fun x => x.name == name then .fail
      else .ok ⟨⟨name, s2.data.prio, s2.data.disabled, s2.data.m⟩ :: s.data, s2.toks, s2.errs⟩
    | _ => .fail
  | _ => .fail

/-- named_backend_retrieve, /repo/src/config.c:159-166 -/
def namedGet (tab : List NamedBe) (name : Bytes) : Option NamedBe := tab.find? fun x => x.name == name

/-! ### After reading: service_finalize -/

/-- str_is_ipv4, /repo/src/config.c:4686-4708: `dots` and `digits` are its counters. -/
def strIsIpv4 (dots digits : Nat) : Bytes → Bool
  | [] => dots == 3
  | c :: t =>
    if c = ch%'.' then if dots + 1 > 4 then false else strIsIpv4 (dots + 1) 0 t
    else if isDigit c && decide (digits + 1 ≤ 3) then strIsIpv4 dots (digits + 1) t
    else false

/-- str_is_ipv6, /repo/src/config.c:4710-4739 -/
def strIsIpv6 (cols dcol digs : Nat) : Bytes → Bool
  | [] => cols == 7 || decide (dcol > 0)
  | c :: t =>
    if c ≥ 128 then false
    else if isXDigit c then if digs + 1 > 4 then false else strIsIpv6 cols dcol (digs + 1) t
    else if c = ch%':' then
      let dcol' := if cols > 0 ∧ digs = 0 then dcol + 1 else dcol
      if dcol' > 1 then false
      else if cols + 1 > 7 then false
      else strIsIpv6 (cols + 1) dcol' 0 t
    else false

/-- str_is_ip, /repo/src/config.c:4741-4760: `dot` is its variable of that name, 0 at first. -/
def strIsIp (dot : UInt8) : Bytes → Bool
  | [] => false
  | c :: t =>
    if c ≥ 128 then false
    else if isXDigit c then strIsIpv6 0 0 0 (c :: t)
    else if c = dot then strIsIpv4 0 0 (c :: t)
    else if isDigit c then strIsIp ch%'.' t
    else false

/-- Where a backend listens: an address getaddrinfo gave, or the name of a socket -/
inductive BeAddr where
  | inet (a : Bytes)
  | path (p : Bytes)
deriving DecidableEq, Repr

/-- A backend after backend_finalize; a regular one has what backend_matrix_to_regular copies, /repo/src/config.c:4762-4786. -/
inductive FBeV where
  | regular (addr : BeAddr) (port to connTo wsTo : Nat) (ctx : Option (List CtxOp)) (sni : Option Bytes)
  | matrix (m : Mtx)
  | redirect (code : Nat) (url : Bytes) (hasUri : Nat)
  | error (status : Nat) (text : Option Bytes)
  | control
  | metrics
deriving DecidableEq, Repr

/-- BACKEND, /repo/src/pound.h:543-577 -/
structure FBe where
  prio : Int
  disabled : Bool
  v : FBeV
deriving DecidableEq, Repr

/-- What finalizing depends on: get_host (/repo/src/svc.c:1269-1292) and whether -Wno-dns was not given -/
structure FinEnv where
  host : Bytes → AddrFam → Option Bytes
  dns : Bool

/-- UNIX_PATH_MAX, /repo/src/pound.h:57-60 -/
def unixPathMax : Nat := 108

/-- backend_resolve, /repo/src/config.c:4788-4825 -/
def backendResolve (e : FinEnv) (m : Mtx) (host : Bytes) : Option FBeV :=
  match e.host host m.family with
  | some a => some (.regular (.inet a) m.port m.to m.connTo m.wsTo m.ctx m.sni)
  | none => if host.length > unixPathMax then none else some (.regular (.path host) m.port m.to m.connTo m.wsTo m.ctx m.sni)

/-- backend_finalize from line 4877 on, /repo/src/config.c:4877-4928; `none`: refused -/
def matrixFinalize (e : FinEnv) (m : Mtx) : Option FBeV :=
  match m.host with
  | none => none
  | some h =>
    let resolve := if h.head? = some ch%'/' ∨ strIsIp 0 h then ResolveMode.immediate else m.resolve
    if m.port ≠ 0 ∧ h.head? = some ch%'/' then none
    else
      let m' := { m with resolve := resolve, port := if m.port = 0 then (if m.ctx.isNone then 80 else 443) else m.port }
      if resolve = .immediate then backendResolve e m' h
      else if e.dns then some (.matrix m')
      else none

/-- backend_finalize, /repo/src/config.c:4851-4930: `.ub` if a named backend has no address (xstrdup (NULL)) -/
def backendFinalize (e : FinEnv) (tab : List NamedBe) (b : BeDecl) : Res (Option FBe) :=
  match b.v with
  | .ref name =>
    match namedGet tab name with
    | none => .ok none
    | some nb =>
      if nb.m.host = none then .ub
      else
        .ok ((matrixFinalize e nb.m).map fun v =>
          ⟨if b.prio = -1 then nb.prio else b.prio, (if b.disabled = -1 then nb.disabled else b.disabled) ≠ 0, v⟩)
  | .mtx m => .ok ((matrixFinalize e m).map fun v => ⟨b.prio, b.disabled ≠ 0, v⟩)
  | .redirect c u h => .ok (some ⟨b.prio, b.disabled ≠ 0, .redirect c u h⟩)
  | .error s t => .ok (some ⟨b.prio, b.disabled ≠ 0, .error s t⟩)
  | .control => .ok (some ⟨b.prio, b.disabled ≠ 0, .control⟩)
  | .metrics => .ok (some ⟨b.prio, b.disabled ≠ 0, .metrics⟩)

/-- PRI_MAX, /repo/src/pound.h:764 -/
def priMax : Int := 65535

/-- cb_be_setup, /repo/src/config.c:4938-4961, for the backends of a group one after the other: `.ok none` if one of them is refused, in which case service_finalize fails
(:4976-4977).  The function is called from balancer_recompute_pri_unlocked, see `finalBal`. -/
def setupGroup (e : FinEnv) (tab : List NamedBe) : List BeDecl → Res (Option (List FBe))
  | [] => .ok (some [])
  | b :: t =>
    match backendFinalize e tab b with
    | .ub => .ub
    | .ok x =>
      match setupGroup e tab t with
      | .ub => .ub
      | .ok y =>
        match x, y with
        | some f, some l => .ok (some ({ f with prio := if f.prio > priMax then priMax else f.prio } :: l))
        | _, _ => .ok none

/-- be_class & ~(...), /repo/src/config.c:4981-4983: a backend of a type of which there may be only one -/
def FBe.sole (b : FBe) : Bool :=
  match b.v with
  | .regular .. => false
  | .matrix _ => false
  | .redirect .. => false
  | _ => true

/-- A balancer after service_finalize -/
structure FGrp where
  weight : Nat
  bes : List FBe
deriving DecidableEq, Repr

/-- service_finalize, /repo/src/config.c:4963-5022: the groups, or `none` if the configuration is refused.  Warnings are not modelled. -/
def serviceFinalize (e : FinEnv) (tab : List NamedBe) : List CGrp → Res (Option (List FGrp))
  | [] => .ok (some [])
  | g :: t =>
    match setupGroup e tab g.bes with
    | .ub => .ub
    | .ok none => .ok none
    | .ok (some l) =>
      if l.length > 1 ∧ l.any FBe.sole then .ok none
      else
        match serviceFinalize e tab t with
        | .ub => .ub
        | .ok none => .ok none
        | .ok (some r) => .ok (some (⟨g.weight, l⟩ :: r))

/-- A backend as the balancer sees it, /repo/src/pound.h:586-599; `i` identifies it.  Resolved backends are alive (/repo/src/config.c:4780). -/
def FBe.be (i : Nat) (b : FBe) : Be :=
  match b.v with
  | .regular .. => ⟨i, .regular, b.prio.toNat, b.disabled, true⟩
  | .matrix _ => ⟨i, .matrix, b.prio.toNat, b.disabled, true⟩
  | _ => ⟨i, .other, b.prio.toNat, b.disabled, true⟩

/-- The backends of a group, numbered from `i` on -/
def numberBes (i : Nat) : List FBe → List Be
  | [] => []
  | b :: t => b.be i :: numberBes (i + 1) t

/-- A balancer after service_finalize, /repo/src/config.c:4972-4975, 5019, with service_lb_init, /repo/src/svc.c:771-776, 813-821: the call-back (`setupGroup`) has been
applied to the backends before; the numbers are those of balancer_recompute_pri_unlocked, /repo/src/svc.c:1101-1122. -/
def finalBal (algo : Algo) (i : Nat) (g : FGrp) : Bal :=
  let bal := Bal.recompute id ⟨algo, g.weight, 0, numberBes i g.bes, 0, 0, 0, none⟩
  match algo with
  | .random => bal
  | .iwrr => bal.iwrrInit

/-- The balancers of a service after service_finalize -/
def finalBals (algo : Algo) : Nat → List FGrp → List Bal
  | _, [] => []
  | i, g :: t => finalBal algo i g :: finalBals algo (i + g.bes.length) t

end Pound
