import Verif.Model.Session
import Verif.Model.Json
import Verif.Model.Expand
import Verif.Model.Request

/-!
The control interface: /repo/src/svc.c:1851-1886, 1901-2062, 2207-2334, 2397-3020.

Memory allocation succeeds.  Objects are designated by their positions in the configuration instead of pointers.  Priorities of backends are in
Model/Balance.lean, generated backends in Model/Dynbe.lean: disabling a backend only sets its flag here.
The service mutex makes the session operations atomic.
-/

namespace Pound

/-! ### strtol -/

def ctlLongMax : Nat := 2 ^ 63 - 1

/-- The value of decimal digits -/
def digitsVal (ds : Bytes) : Nat := ds.foldl (fun n c => n * 10 + (c.toNat - 48)) 0

/-- What is left of strtol's work after the sign: value, error and the rest; `s` is the whole text. -/
def strtolDigits (neg : Bool) (s t : Bytes) : Int × Bool × Bytes :=
  let ds := t.takeWhile isDigit
  if ds = [] then (0, false, s)
  else
    let v := digitsVal ds
    let r := t.dropWhile isDigit
    if neg then (if ctlLongMax + 1 < v then (-(ctlLongMax + 1 : Int), true, r) else (-(v : Int), false, r))
    else (if ctlLongMax < v then ((ctlLongMax : Int), true, r) else ((v : Int), false, r))

/-- strtol (s, &end, 10): the value, whether errno was set, and the text at `end`.  `long` has 64 bits. -/
def strtol10 (s : Bytes) : Int × Bool × Bytes :=
  match s.dropWhile isSpace with
  | 45 :: t => strtolDigits true s t
  | 43 :: t => strtolDigits false s t
  | t => strtolDigits false s t

/-- Conversion of long to int: modulo 2^32 -/
def intOfLong (n : Int) : Int := (n + 2 ^ 31) % 2 ^ 32 - 2 ^ 31

/-! ### Configuration -/

/-- The types of backends that matter for control requests, /repo/src/svc.c:1951-1982 -/
inductive BeKind where
  | regular
  | matrix
  | control
  | other
deriving DecidableEq, Repr

/-- Fields of BACKEND (/repo/src/pound.h:559-600); `ptr` is its address. -/
structure CBe where
  ptr : Nat
  kind : BeKind
  disabled : Bool
deriving DecidableEq, Repr

/-- Fields of SERVICE (/repo/src/pound.h:789-827): name, balancers with their backends, sessions (`none` for SESS_NONE), life time of
sessions, and whether it has a session table: services made for Control and ACME have none (/repo/src/config.c:2685, 2736, 4272). -/
structure CSvc where
  name : Option Bytes
  disabled : Bool
  balancers : List (List CBe)
  hasSessions : Bool
  sessions : SessTab
  ttl : Nat
  hasTable : Bool
deriving DecidableEq, Repr

/-- Fields of LISTENER -/
structure CLst where
  name : Option Bytes
  disabled : Bool
  services : List CSvc
deriving DecidableEq, Repr

/-- The global lists `listeners` and `services` -/
structure Conf where
  listeners : List CLst
  services : List CSvc
deriving DecidableEq, Repr

/-! ### Paths -/

/-- IDENT, /repo/src/svc.c:2489-2501 -/
inductive Ident where
  | err
  | num (n : Int)
  | str (name : Bytes)
deriving DecidableEq, Repr

/-- Not one of the bytes of "/?" -/
def notEnd (c : UInt8) : Bool := c != ch%'/' && c != ch%'?'

/-- *end != 0 && *end != '/' && *end != '?' -/
def goesOn (t : Bytes) : Bool := match t.head? with | some c => notEnd c | none => false

/-- ctl_getident after the '/', /repo/src/svc.c:2518-2534 -/
def identAt (u : Bytes) : Ident × Bytes :=
  let r := strtol10 u
  if goesOn r.2.2 then (.str (u.takeWhile notEnd), u.dropWhile notEnd)
  else if r.2.1 = false ∧ r.1 ≤ 2 ^ 31 - 1 then (.num (intOfLong r.1), r.2.2)
  else (.err, u)

/-- ctl_getident, /repo/src/svc.c:2509-2537 -/
def ctlGetident (url : Bytes) : Ident × Bytes :=
  if url.head? = some ch%'/' then identAt (url.drop 1) else (.err, url)

/-- LOCATE, /repo/src/svc.c:2539-2561: position of the object in the list; `i` is `__n`. -/
def locateIn (names : List (Option Bytes)) (id : Ident) (i : Nat) : Option Nat :=
  match names with
  | [] => none
  | nm :: r =>
    if (match id with
      | .num n => decide (n = i)
      | .str s => nm == some s
      | .err => false) then some i
    else locateIn r id (i + 1)

/-- locate_listener, /repo/src/svc.c:2567-2576 -/
def locateListener (c : Conf) (id : Ident) : Option Nat :=
  if id = .err then none else locateIn (c.listeners.map (·.name)) id 0

/-- The list of services of a listener, or the global one, /repo/src/svc.c:2587 -/
def Conf.svcs (c : Conf) : Option Nat → List CSvc
  | none => c.services
  | some i => match c.listeners[i]? with | some l => l.services | none => []

/-- locate_service, /repo/src/svc.c:2582-2592 -/
def locateService (c : Conf) (l : Option Nat) (id : Ident) : Option Nat :=
  if id = .err then none else locateIn ((c.svcs l).map (·.name)) id 0

/-- The inner loop of locate_backend, /repo/src/svc.c:2607-2612 -/
def locateBeIn (id : Int) : List CBe → Nat → Option CBe ⊕ Nat
  | [], n => .inr n
  | b :: r, n => if (n : Int) = id then .inl (some b) else locateBeIn id r (n + 1)

/-- The outer loop of locate_backend, /repo/src/svc.c:2604-2613 -/
def locateBe (id : Int) : List (List CBe) → Nat → Option CBe
  | [], _ => none
  | bl :: r, n =>
    match locateBeIn id bl n with
    | .inl b => b
    | .inr n => locateBe id r n

/-- locate_backend, /repo/src/svc.c:2597-2616 -/
def locateBackend (s : CSvc) : Ident → Option CBe
  | .num n => locateBe n s.balancers 0
  | _ => none

/-- OBJECT, /repo/src/svc.c:2625-2634; `listener none` is the NULL listener, `service l i` the i-th service of listener `l` (or the global
list), `backend l i p` the backend at address `p` of that service. -/
inductive Obj where
  | listener (l : Option Nat)
  | service (l : Option Nat) (s : Nat)
  | backend (l : Option Nat) (s : Nat) (p : Nat)
deriving DecidableEq, Repr

/-- *url && *url != '?' -/
def more (url : Bytes) : Bool := match url.head? with | some c => c != ch%'?' | none => false

/-- ctl_backend, /repo/src/svc.c:2638-2646: the object and URL passed to the handler, `none` for 404 -/
def ctlBackend (c : Conf) (url : Bytes) (l : Option Nat) (i : Nat) : Option (Obj × Bytes) :=
  match (c.svcs l)[i]? with
  | none => none
  | some s =>
    let r := ctlGetident url
    match locateBackend s r.1 with
    | some b => some (.backend l i b.ptr, r.2)
    | none => none

/-- ctl_service, /repo/src/svc.c:2648-2659 -/
def ctlService (c : Conf) (url : Bytes) (l : Option Nat) : Option (Obj × Bytes) :=
  let r := ctlGetident url
  match locateService c l r.1 with
  | none => none
  | some i => if more r.2 then ctlBackend c r.2 l i else some (.service l i, r.2)

def notQm (c : UInt8) : Bool := c != ch%'?'

/-- The part of ctl_listener after the listener has been found, /repo/src/svc.c:2680-2683 -/
def ctlListenerAt (c : Conf) (l : Option Nat) (url : Bytes) : Option (Obj × Bytes) :=
  if more url then ctlService c url l else some (.listener l, url)

/-- ctl_listener, /repo/src/svc.c:2661-2684 -/
def ctlListener (c : Conf) (url : Bytes) : Option (Obj × Bytes) :=
  let len := (url.takeWhile notQm).length
  if url.head? = some ch%'/' ∧ len = 1 then ctlListenerAt c none (url.drop 1)
  else if url.head? = some ch%'/' ∧ url[1]? = some ch%'-' ∧ (len = 2 ∨ url[2]? = some ch%'/') then ctlListenerAt c none (url.drop 2)
  else
    let r := ctlGetident url
    match locateListener c r.1 with
    | none => none
    | some i => ctlListenerAt c (some i) r.2

/-! ### Replies -/

/-- The loop of get_param, /repo/src/svc.c:1857-1865, from the byte after '?' or '&'.  The result is the text at `p` (`none` for NULL) and
`ret_len` (`none` if it is not set). -/
def getParamLoop (param : Bytes) : Nat → Bytes → Option (Bytes × Option Nat)
  | 0, _ => none
  | f + 1, p =>
    if p = [] then some ([], none)
    else if p.take param.length = param ∧ p[param.length]? = some ch%'=' then
      let v := p.drop (param.length + 1)
      some (v, some (v.takeWhile notAmp).length)
    else
      match p.dropWhile notAmp with
      | [] => none
      | _ :: r => getParamLoop param f r

/-- get_param, /repo/src/svc.c:1851-1867 -/
def getParam (url param : Bytes) : Option (Bytes × Option Nat) :=
  match url.dropWhile notQm with
  | [] => none
  | _ :: r => getParamLoop param (r.length + 1) r

/-- What is sent in the reply -/
inductive Shown where
  | core
  | object (o : Obj)
  | true
deriving DecidableEq, Repr

/-- Outcome of a control request: the status and, if it is 200, what is sent and its indentation -/
structure CReply where
  status : Status
  shown : Option (Shown × Nat)
deriving DecidableEq, Repr

/-- send_json_reply, /repo/src/svc.c:2397-2442: 400, or 200 with the value.  Using the length that get_param did not set is undefined. -/
def sendJson (v : Shown) (url : Bytes) : Res CReply :=
  match getParam url b!"indent" with
  | none => .ok ⟨.ok, some (v, 0)⟩
  | some (_, none) => .ub
  | some (p, some len) =>
    let r := strtol10 p
    if r.2.1 ∨ r.2.2.length ≠ p.length - len ∨ r.1 < 0 ∨ 80 < r.1 then .ok ⟨.badRequest, none⟩
    else .ok ⟨.ok, some (v, r.1.toNat)⟩

/-- list_handler, /repo/src/svc.c:2686-2728 -/
def listHandler (o : Obj) (url : Bytes) : Res CReply :=
  if more url then .ok ⟨.notFound, none⟩ else sendJson (.object o) url

/-! ### Effects -/

/-- Change of the services of a listener or of the global list -/
def Conf.setSvc (c : Conf) (l : Option Nat) (i : Nat) (f : CSvc → CSvc) : Conf :=
  match l with
  | none => { c with services := c.services.modify i f }
  | some k => { c with listeners := c.listeners.modify k fun l => { l with services := l.services.modify i f } }

/-- service_has_control, /repo/src/svc.c:2746-2760 -/
def CSvc.hasControl (s : CSvc) : Bool := s.balancers.any fun bl => bl.any fun b => b.kind == .control

/-- listener_has_control, /repo/src/svc.c:2762-2770 -/
def CLst.hasControl (l : CLst) : Bool := l.services.any CSvc.hasControl

/-- backend_disable, /repo/src/svc.c:1246-1264, with cb_backend_disable, :1188-1225, and backend_matrix_disable, /repo/src/dynbe.c:699-724:
the flag is changed for regular and matrix backends. -/
def beDisable (dis : Bool) (p : Nat) (b : CBe) : CBe :=
  if b.ptr = p ∧ (b.kind = .regular ∨ b.kind = .matrix) then { b with disabled := dis } else b

def svcBe (c : Conf) (l : Option Nat) (i p : Nat) : Option CBe :=
  match (c.svcs l)[i]? with
  | none => none
  | some s => s.balancers.flatten.find? fun b => b.ptr == p

/-- be_type == BE_CONTROL; and the same for a service and a listener at some position -/
def beIsControl : Option CBe → Bool
  | some b => b.kind == .control
  | none => false

def svcIsControl : Option CSvc → Bool
  | some s => s.hasControl
  | none => false

def lstIsControl : Option CLst → Bool
  | some s => s.hasControl
  | none => false

/-- Change of the flag of a backend of a service -/
def CSvc.disableBe (dis : Bool) (p : Nat) (s : CSvc) : CSvc :=
  { s with balancers := s.balancers.map fun bl => bl.map (beDisable dis p) }

/-- disable_handler, /repo/src/svc.c:2772-2811.  A NULL listener is dereferenced. -/
def disableHandler (dis : Bool) (c : Conf) (o : Obj) (url : Bytes) : Res (Conf × CReply) :=
  if more url then .ok (c, ⟨.notFound, none⟩)
  else
    let fin : Conf → Res (Conf × CReply) := fun c => match sendJson .true url with | .ub => .ub | .ok r => .ok (c, r)
    match o with
    | .backend l i p =>
      if beIsControl (svcBe c l i p) then .ok (c, ⟨.badRequest, none⟩)
      else fin (c.setSvc l i (CSvc.disableBe dis p))
    | .service l i =>
      if svcIsControl (c.svcs l)[i]? then .ok (c, ⟨.badRequest, none⟩)
      else fin (c.setSvc l i (fun s : CSvc => { s with disabled := dis }))
    | .listener none => .ub
    | .listener (some k) =>
      if lstIsControl c.listeners[k]? then .ok (c, ⟨.badRequest, none⟩)
      else fin { c with listeners := c.listeners.modify k (fun l : CLst => { l with disabled := dis }) }

/-- The key of a session, /repo/src/svc.c:2870-2875 and :2914-2919 (KEY_SIZE is 127); `ub` if the length is not set -/
def sessionKey (url : Bytes) : Res (Option Bytes) :=
  match getParam url b!"key" with
  | none => .ok none
  | some (_, none) => .ub
  | some (p, some len) => if 127 < len then .ok none else .ok (some (p.take len))

/-- Whether svc->sessions is not NULL: service_session_add and service_session_remove_by_key (/repo/src/svc.c:359, 414) use it unchecked. -/
def Conf.tableAt (c : Conf) (l : Option Nat) (i : Nat) : Bool := match (c.svcs l)[i]? with | some s => s.hasTable | none => false

/-- session_remove_handler, /repo/src/svc.c:2849-2889 -/
def sessionRemoveHandler (c : Conf) (o : Obj) (url : Bytes) : Res (Conf × CReply) :=
  match o with
  | .service l i =>
    match sessionKey url with
    | .ub => .ub
    | .ok none => .ok (c, ⟨.badRequest, none⟩)
    | .ok (some k) =>
      if !c.tableAt l i then .ub else
      let c := c.setSvc l i fun s => { s with sessions := s.sessions.removeKey k }
      match sendJson (.object o) url with
      | .ub => .ub
      | .ok r => .ok (c, r)
  | _ => .ok (c, ⟨.badRequest, none⟩)

/-- session_add_handler, /repo/src/svc.c:2891-2933; `now` is the time. -/
def sessionAddHandler (now : TS) (c : Conf) (o : Obj) (url : Bytes) : Res (Conf × CReply) :=
  match o with
  | .backend l i p =>
    match sessionKey url with
    | .ub => .ub
    | .ok none => .ok (c, ⟨.badRequest, none⟩)
    | .ok (some k) =>
      if !c.tableAt l i then .ub else
      let c := c.setSvc l i fun s => { s with sessions := (s.sessions.add s.ttl now k p).1 }
      match sendJson (.object (.service l i)) url with
      | .ub => .ub
      | .ok r => .ok (c, r)
  | _ => .ok (c, ⟨.badRequest, none⟩)

/-! ### Endpoints -/

/-- Request methods, /repo/src/pound.h:223-256 -/
inductive CMeth where
  | get
  | put
  | delete
  | other (n : Nat)
deriving DecidableEq, Repr

/-- The functions of the table -/
inductive EndFn where
  | listAll
  | listCore
  | listListener
  | disableListener
  | enableListener
  | listService
  | disableService
  | enableService
  | deleteSession
  | addSession
deriving DecidableEq, Repr

/-- struct endpoint, /repo/src/svc.c:2951-2957 -/
structure Endpoint where
  uri : Bytes
  method : CMeth
  fn : EndFn
deriving DecidableEq, Repr

/-- control_endpoint, /repo/src/svc.c:2959-2973 -/
def endpoints : List Endpoint :=
  [⟨[], .get, .listAll⟩, ⟨b!"/core", .get, .listCore⟩, ⟨b!"/listener", .get, .listListener⟩, ⟨b!"/listener", .delete, .disableListener⟩,
   ⟨b!"/listener", .put, .enableListener⟩, ⟨b!"/service", .get, .listService⟩, ⟨b!"/service", .delete, .disableService⟩,
   ⟨b!"/service", .put, .enableService⟩, ⟨b!"/session", .delete, .deleteSession⟩, ⟨b!"/session", .put, .addSession⟩]

/-- The condition of /repo/src/svc.c:2989-2992 -/
def uriMatch (uri : Bytes) (len : Nat) (p : Endpoint) : Bool :=
  decide (p.uri.length ≤ len) && uri.take p.uri.length == p.uri &&
    (match uri[p.uri.length]? with | none => true | some c => c == ch%'/' || c == ch%'?')

/-- The loop of find_endpoint, /repo/src/svc.c:2988-3001 -/
def findLoop (method : CMeth) (uri : Bytes) (len : Nat) : List Endpoint → Option Endpoint → Bool → Option Endpoint × Bool
  | [], cp, um => (cp, um)
  | p :: r, cp, um =>
    if uriMatch uri len p then
      if p.method = method then
        let better := match cp with | none => true | some q => decide (q.uri.length < p.uri.length)
        findLoop method uri len r (if better then some p else cp) um
      else findLoop method uri len r cp true
    else findLoop method uri len r cp um

/-- find_endpoint, /repo/src/svc.c:2975-3007: the endpoint or the error code; `none` if neither is set -/
def findEndpoint (tab : List Endpoint) (method : CMeth) (uri : Bytes) : Option (Endpoint ⊕ Status) :=
  let len := (uri.takeWhile notQm).length
  if len = 0 then none
  else
    let len := if uri[len - 1]? = some ch%'/' then len - 1 else len
    let r := findLoop method uri len tab none false
    match r.1 with
    | some p => some (.inl p)
    | none => some (.inr (if r.2 then .badRequest else .notFound))

/-- The check and call in control_disable_listener and the like, /repo/src/svc.c:2730-2744, 2813-2847, 2935-2949 -/
def withPath (c : Conf) (url : Bytes) (find : Bytes → Option (Obj × Bytes)) (f : Obj → Bytes → Res (Conf × CReply)) : Res (Conf × CReply) :=
  if url.head? = some ch%'/' then
    match find url with
    | none => .ok (c, ⟨.notFound, none⟩)
    | some (o, u) => f o u
  else .ok (c, ⟨.notFound, none⟩)

/-- A handler without effect -/
def pureReply (c : Conf) (r : Res CReply) : Res (Conf × CReply) := match r with | .ub => .ub | .ok r => .ok (c, r)

/-- The functions of the table: control_list_all and control_list_core, /repo/src/svc.c:2444-2474, and :2730-2744, 2813-2847, 2935-2949 -/
def endFn (now : TS) (c : Conf) (url : Bytes) : EndFn → Res (Conf × CReply)
  | .listAll => pureReply c (sendJson (.object (.listener none)) url)
  | .listCore => pureReply c (sendJson .core url)
  | .listListener => withPath c url (ctlListener c) fun o u => pureReply c (listHandler o u)
  | .disableListener => withPath c url (ctlListener c) (disableHandler true c)
  | .enableListener => withPath c url (ctlListener c) (disableHandler false c)
  | .listService => withPath c url (fun u => ctlService c u none) fun o u => pureReply c (listHandler o u)
  | .disableService => withPath c url (fun u => ctlService c u none) (disableHandler true c)
  | .enableService => withPath c url (fun u => ctlService c u none) (disableHandler false c)
  | .deleteSession => withPath c url (ctlListener c) (sessionRemoveHandler c)
  | .addSession => withPath c url (ctlListener c) (sessionAddHandler now c)

/-- control_response_basic, /repo/src/svc.c:3009-3020.  If find_endpoint does not set the code, it is undefined. -/
def controlResponse (now : TS) (c : Conf) (method : CMeth) (url : Bytes) : Res (Conf × CReply) :=
  match findEndpoint endpoints method url with
  | none => .ub
  | some (.inl ep) => endFn now c (url.drop ep.uri.length) ep.fn
  | some (.inr code) => .ok (c, ⟨code, none⟩)

/-! ### Listings -/

/-- The inner loop of session_backend_index, /repo/src/svc.c:1878-1883 -/
def sbiInner (p : Nat) : List CBe → Nat → Nat
  | [], n => n
  | b :: r, n => if b.ptr = p then n else sbiInner p r (n + 1)

/-- session_backend_index, /repo/src/svc.c:1869-1886: `break` leaves the inner loop only. -/
def sessionBackendIndex (p : Nat) : List (List CBe) → Nat → Nat
  | [], n => n
  | bl :: r, n => sessionBackendIndex p r (sbiInner p bl n)

/-- The inner loop of find_backend_index, /repo/src/svc.c:2054-2059 -/
def fbiInner (p : Nat) : List CBe → Nat → Nat ⊕ Nat
  | [], n => .inr n
  | b :: r, n => if b.ptr = p then .inl n else fbiInner p r (n + 1)

/-- find_backend_index, /repo/src/svc.c:2046-2062; `none` for -1 -/
def findBackendIndex (p : Nat) : List (List CBe) → Nat → Option Nat
  | [], _ => none
  | bl :: r, n =>
    match fbiInner p bl n with
    | .inl i => some i
    | .inr n => findBackendIndex p r n

/-- One attribute after the other, json_object_set, as in /repo/src/svc.c:2247-2252 -/
def jBuild {D} : List (Bytes × JVal D) → JObj (JVal D) → Res (JObj (JVal D))
  | [], o => .ok o
  | (k, v) :: r, o => match jSet o k v with | .ub => .ub | .ok o => jBuild r o

def jObject {D} (l : List (Bytes × JVal D)) : Res (JVal D) :=
  match jBuild l jNew with
  | .ub => .ub
  | .ok o => .ok (.obj o.count o.pairs)

/-- What the listings use: numbers (json_new_integer), times as text, and the attributes of a backend that are not modelled. -/
structure ShowLib (D : Type) where
  int : Nat → D
  time : TS → Bytes
  extra : CBe → List (Bytes × JVal D)

/-- service_session_serialize, /repo/src/svc.c:1901-1949, one session -/
def sessSerialize {D} (L : ShowLib D) (bals : List (List CBe)) (s : Sess) : Res (JVal D) :=
  jObject [(b!"key", .str s.key), (b!"backend", .int (L.int (sessionBackendIndex s.be bals 0))), (b!"expire", .str (L.time s.expire))]

/-- The results of a loop over a list -/
def resMap {α β} (f : α → Res β) : List α → Res (List β)
  | [] => .ok []
  | a :: r =>
    match f a with
    | .ub => .ub
    | .ok b => match resMap f r with | .ub => .ub | .ok bs => .ok (b :: bs)

/-- service_session_serialize, /repo/src/svc.c:1901-1949 -/
def sessionsSerialize {D} (L : ShowLib D) (s : CSvc) : Res (JVal D) :=
  if s.hasSessions then match resMap (sessSerialize L s.balancers) s.sessions.head with | .ub => .ub | .ok l => .ok (.arr l)
  else .ok .null

/-- backend_serialize, /repo/src/svc.c:2113-2205: "enabled" and the other attributes -/
def beSerialize {D} (L : ShowLib D) (b : CBe) : Res (JVal D) := jObject ((b!"enabled", .bool !b.disabled) :: L.extra b)

/-- backends_serialize, /repo/src/svc.c:2207-2234 -/
def backendsSerialize {D} (L : ShowLib D) (bals : List (List CBe)) : Res (JVal D) :=
  if bals = [] then .ok .null
  else match resMap (beSerialize L) bals.flatten with | .ub => .ub | .ok l => .ok (.arr l)

/-- service_serialize, /repo/src/svc.c:2236-2261 (without session_type) -/
def svcSerialize {D} (L : ShowLib D) (s : CSvc) : Res (JVal D) :=
  match sessionsSerialize L s, backendsSerialize L s.balancers with
  | .ok ss, .ok bs =>
    jObject [(b!"name", match s.name with | some n => .str n | none => .null), (b!"enabled", .bool !s.disabled), (b!"sessions", ss), (b!"backends", bs)]
  | _, _ => .ub

end Pound
