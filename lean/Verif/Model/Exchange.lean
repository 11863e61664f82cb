import Verif.Model.Headers
import Verif.Model.Request

/-!
Model of the processing of one client connection (/repo/src/http.c:4533-4952 `do_http`), of
forwarding a request (`send_to_backend`) and of relaying the response (`backend_response`).

Not modelled: TLS set-up, logging, statistics, time-outs and I/O errors while writing. The
choice of service and backend, header edits and rewriting (modelled elsewhere) are parameters.
-/

namespace Pound

/-- `TRANSFER_ENCODING_*` (/repo/src/http.c:4521-4526). -/
inductive TE where
  | none | unknown | chunked
deriving DecidableEq, Repr

/-- The regular expression CONN_UPGRD, `(^|[ \t,])upgrade([ \t,]|$)` ignoring case
(/repo/src/pound.c:1131-1133), searched from a position; `start` tells that the position is the
beginning or is preceded by one of the delimiters. -/
def connUpgrade (start : Bool) (s : Bytes) : Bool :=
  let delim := fun c : UInt8 => isWs c || c == ch%','
  match s with
  | [] => false
  | c :: t =>
    (start && s.length ≥ 7 && ciEq (s.take 7) b!"upgrade" &&
      (match s.drop 7 with | [] => true | d :: _ => delim d)) ||
    connUpgrade (delim c) t

/-- The bits of `ws_state` set from the request (/repo/src/pound.h:931-945). -/
structure WsReq where
  get : Bool := false
  connUpgrade : Bool := false
  upgradeWs : Bool := false
deriving DecidableEq, Repr

/-- Variables of the header loop of `do_http`. -/
structure ScanState where
  te : TE := .none
  cl : Int := noContentLength
  connClosed : Bool := false
  ws : WsReq := {}
  /-- headers kept so far -/
  headers : List Header := []
deriving DecidableEq, Repr

/-- Outcome of scanning: state, error reply, or undefined behaviour. -/
inductive ScanRes (α : Type) where
  | ok (s : α)
  | err (st : Status)
  | ub
deriving DecidableEq, Repr

/-- One iteration of the header loop of `do_http` (/repo/src/http.c:4668-4777). -/
def scanHeader (s : ScanState) (h : Header) : ScanRes ScanState :=
  let keep := { s with headers := s.headers ++ [h] }
  match h.code with
  | .connection =>
    match h.value with
    | .ub => .ub
    | .ok val =>
      if (csLocate val b!"close" true).isSome then .ok { keep with connClosed := true }
      else if connUpgrade true val then .ok { keep with ws := { s.ws with connUpgrade := true } }
      else .ok keep
  | .upgrade =>
    match h.value with
    | .ub => .ub
    | .ok val =>
      if (csLocate val b!"websocket" true).isSome then
        .ok { keep with ws := { s.ws with upgradeWs := true } }
      else .ok keep
  | .transferEncoding =>
    match h.value with
    | .ub => .ub
    | .ok val =>
      if s.te = .chunked then .err .badRequest
      else match csLocate val b!"chunked" true with
        | some p => if p.next ≠ [] then .err .badRequest else .ok { keep with te := .chunked }
        | none => .ok { keep with te := .unknown }
  | .contentLength =>
    match h.value with
    | .ub => .ub
    | .ok val =>
      if s.cl ≠ noContentLength ∨ val.contains ch%',' then .err .badRequest
      else
        let n := getContentLength val .header
        if n = noContentLength then .err .badRequest else .ok { keep with cl := n }
  | .expect =>
    match h.value with
    | .ub => .ub
    | .ok val => if ciEq b!"100-continue" val then .ok s else .ok keep
  | .illegal => .ok s
  | _ => .ok keep

/-- The header loop of `do_http`. -/
def scanHeaders (s : ScanState) : List Header → ScanRes ScanState
  | [] => .ok s
  | h :: t =>
    match scanHeader s h with
    | .ok s' => scanHeaders s' t
    | .err st => .err st
    | .ub => .ub

/-- Check for conflicting framing (/repo/src/http.c:4782-4799). -/
def checkFraming (s : ScanState) : ScanRes ScanState :=
  if s.te ≠ .none then
    if s.te = .unknown then .err .notImplemented
    else if s.cl ≠ noContentLength then .err .badRequest
    else .ok s
  else .ok s

/-- The members of a listener used here. -/
structure LstnCfg where
  /-- `verb`: method group -/
  verb : Nat := 0
  /-- names of combinable headers -/
  table : List Bytes := []
  /-- `url_pat`: does the URL match? -/
  urlPat : Option (Bytes → Bool) := none
  maxUri : Nat := 0
  maxReq : Int := 0
  noHttps11 : Nat := 0
  ssl : Bool := false

/-- A request that passed the checks of `do_http`. -/
structure Accepted where
  line : Bytes
  rl : ReqLine
  scan : ScanState
  rest : Bytes
deriving DecidableEq, Repr

/-- Result of reading and checking one request. -/
inductive AcceptRes where
  /-- nothing (more) could be read: the connection ends without a reply -/
  | noRequest
  | err (st : Status)
  | ub
  | ok (a : Accepted)
deriving DecidableEq, Repr

/-- Reading and checking one request (/repo/src/http.c:4616-4842). -/
def acceptRequest (cfg : LstnCfg) (inp : Bytes) : AcceptRes :=
  match httpRequestRead cfg.table inp with
  | .err _ => .noRequest
  | .ok line hs rest =>
    match parseHttpRequest line cfg.verb with
    | .err st => .err st
    | .ok rl =>
      if (match cfg.urlPat with | some f => !f rl.url | none => false) then .err .notImplemented
      else
        match scanHeaders { ws := { get := rl.meth == METH b!"GET" } } hs with
        | .err st => .err st
        | .ub => .ub
        | .ok s =>
          match checkFraming s with
          | .err st => .err st
          | .ub => .ub
          | .ok s =>
            if cfg.maxUri > 0 ∧ rl.url.length > cfg.maxUri then .err .uriTooLong
            else if cfg.maxReq > 0 ∧ s.cl > 0 ∧ s.cl > cfg.maxReq then .err .payloadTooLarge
            else .ok ⟨line, rl, s, rest⟩

/-- Output of `http_request_send` followed by the final CRLF
(/repo/src/http.c:3184-3210, 4263-4274). -/
def sendHead (line : Bytes) (hs : List Header) : Bytes :=
  line ++ crlf ++ hs.flatMap (fun h => h.text ++ crlf) ++ crlf

/-- Result of `send_to_backend`: 0 (`ok`) or an error; bytes sent; unread client input. -/
structure SendRes where
  fin : ChunkEnd
  out : Bytes
  rest : Bytes
deriving DecidableEq, Repr

/-- `send_to_backend` (/repo/src/http.c:4160-4316) for a regular backend. `edit` stands for the
additions and rewriting of request line and headers (`none`: failure). -/
def sendToBackend (sched : Nat → Nat) (edit : Bytes → List Header → Option (Bytes × List Header))
    (line : Bytes) (hs : List Header) (chunked : Bool) (cl maxReq : Int) (inp : Bytes) : SendRes :=
  match edit line hs with
  | none => ⟨.status .internalError, [], inp⟩
  | some (line, hs) =>
    let head := sendHead line hs
    if chunked then
      let r := copyChunks sched false maxReq inp
      ⟨r.fin, head ++ r.out, r.rest⟩
    else if cl > 0 then
      let r := copyBin sched inp cl.toNat false
      ⟨.status (if r.ok then .ok else .internalError), head ++ r.out, r.rest⟩
    else ⟨.status .ok, head, inp⟩

/-- The first character is a blank; `nil` is the answer for the empty string. -/
def startsWs (nil : Bool) : Bytes → Bool
  | [] => nil
  | c :: _ => isWs c

/-- `http_response_validate` (/repo/src/http.c:3624-3650): version and code, or refused. Reading
`str[1]`, `str[2]`, `str[3]` stops at the terminating NUL. -/
def httpResponseValidate (line : Bytes) : Option (Nat × Nat) :=
  if line.take 7 = b!"HTTP/1." ∧ (line[7]? = some 48 ∨ line[7]? = some 49) ∧
      startsWs false (line.drop 8) then
    let str := trimWsL (line.drop 8)
    match str with
    | a :: b :: c :: r =>
      if 49 ≤ a ∧ a ≤ 53 ∧ isDigit b ∧ isDigit c ∧ startsWs true r then
        some (((line[7]?).getD 0 - 48).toNat,
          100 * (a.toNat - 48) + 10 * (b.toNat - 48) + (c.toNat - 48))
      else none
    | _ => none
  else none

/-- Parameters of relaying a response. -/
structure RespEnv where
  table : List Bytes := []
  /-- rewriting of response headers (`none`: failure) -/
  edit : List Header → Option (List Header) := some
  /-- new text for a Location or Content-Location header, `need_rewrite` and what follows
  (/repo/src/http.c:3772-3829) -/
  loc : HCode → Bytes → Option Bytes := fun _ _ => none
  /-- `is_readable` before copying up to the end of file -/
  readable : Bool := true
  sched : Nat → Nat := fun n => n
  /-- bytes relayed to the client after switching to WebSocket (Model/Tunnel.lean) -/
  wsOut : Bytes := []
  /-- relaying after the switch ends with an error -/
  wsFail : Bool := false

/-- Variables of the header loop of `backend_response`. -/
structure RespScan where
  chunked : Bool := false
  cl : Int := noContentLength
  noCont : Bool
  connClosed : Bool
  wsConn : Bool := false
  wsUpg : Bool := false
  headers : List Header := []
deriving DecidableEq, Repr

/-- One iteration of the header loop of `backend_response` (/repo/src/http.c:3723-3839). A
header with a bad length is removed and freed while the loop still needs its link: undefined. -/
def respHeader (env : RespEnv) (s : RespScan) (h : Header) : Res RespScan :=
  let keep := { s with headers := s.headers ++ [h] }
  match h.code with
  | .connection =>
    match h.value with
    | .ub => .ub
    | .ok val =>
      if ciEq b!"close" val then .ok { keep with connClosed := true }
      else if connUpgrade true val then .ok { keep with wsConn := true }
      else .ok keep
  | .upgrade =>
    match h.value with
    | .ub => .ub
    | .ok val =>
      if (csLocate val b!"websocket" true).isSome then .ok { keep with wsUpg := true } else .ok keep
  | .transferEncoding =>
    match h.value with
    | .ub => .ub
    | .ok val =>
      if (csLocate val b!"chunked" true).isSome then
        .ok { keep with chunked := true, noCont := false }
      else .ok keep
  | .contentLength =>
    match h.value with
    | .ub => .ub
    | .ok val =>
      let n := getContentLength val .header
      if n = noContentLength then .ub else .ok { keep with cl := n }
  | .location | .contLocation =>
    match h.value with
    | .ub => .ub
    | .ok val =>
      match env.loc h.code val with
      | some t => .ok { s with headers := s.headers ++ [h.change t] }
      | none => .ok keep
  | _ => .ok keep

/-- The header loop of `backend_response`. -/
def respHeaders (env : RespEnv) (s : RespScan) : List Header → Res RespScan
  | [] => .ok s
  | h :: t =>
    match respHeader env s h with
    | .ok s' => respHeaders env s' t
    | .ub => .ub

/-- Result of `backend_response`. -/
structure RespRes where
  /-- status, or `none` for -1 -/
  fin : Res (Option Status)
  /-- bytes sent to the client -/
  out : Bytes
  /-- input from the backend not consumed -/
  rest : Bytes
  /-- the connection to the backend is kept -/
  keep : Bool
  connClosed : Bool
deriving DecidableEq, Repr

/-- `no_cont` after looking at the response code (/repo/src/http.c:3699-3719). -/
def noContOf (noCont : Bool) (code : Nat) : Bool :=
  if code = 100 then noCont
  else if code = 101 then true
  else if code = 204 ∨ code = 304 ∨ code = 305 ∨ code = 306 then true
  else if code / 100 = 1 then true
  else noCont

/-- `backend_response` (/repo/src/http.c:3653-4154). The first argument bounds the iterations of
the outer loop (each reads a response head). `-1` results are `none`. -/
def backendResponse (env : RespEnv) (ws : WsReq) :
    Nat → (skip noCont connClosed : Bool) → (ws101 wsConn wsUpg : Bool) → Bytes → Bytes → RespRes
  | 0, _, _, closed, _, _, _, inp, out => ⟨.ub, out, inp, false, closed⟩
  | fuel + 1, skip, noCont, closed, ws101, wsConn, wsUpg, inp, out =>
    match httpRequestRead env.table inp with
    | .err st => ⟨.ok (some st), out, inp, true, closed⟩
    | .ok line hs rest =>
      match httpResponseValidate line with
      | none => ⟨.ok (some .serviceUnavailable), out, rest, true, closed⟩
      | some (ver, code) =>
        match env.edit hs with
        | none => ⟨.ok (some .internalError), out, rest, true, closed⟩
        | some hs =>
          let skip := skip || code == 100
          let ws101 := ws101 || code == 101
          match respHeaders env { noCont := noContOf noCont code, connClosed := closed,
                                  wsConn := wsConn, wsUpg := wsUpg } hs with
          | .ub => ⟨.ub, out, rest, false, closed⟩
          | .ok s =>
            let be11 := ver == 1
            let out := if skip then out else out ++ sendHead line s.headers
            let fin := fun (be11 closed : Bool) (out rest : Bytes) =>
              if skip then
                backendResponse env ws fuel skip s.noCont closed ws101 s.wsConn s.wsUpg rest out
              else ⟨.ok (some .ok), out, rest, be11, closed⟩
            if !s.noCont then
              if be11 && s.chunked then
                let r := copyChunks env.sched skip 0 rest
                match r.fin with
                | .status .ok => fin be11 s.connClosed (out ++ r.out) r.rest
                | .status _ => ⟨.ok none, out ++ r.out, r.rest, true, s.connClosed⟩
                | _ => ⟨.ub, out ++ r.out, r.rest, true, s.connClosed⟩
              else if s.cl ≥ 0 then
                let r := copyBin env.sched rest s.cl.toNat skip
                if r.ok then fin be11 s.connClosed (out ++ r.out) r.rest
                else ⟨.ok none, out ++ r.out, r.rest, true, s.connClosed⟩
              else if !skip && env.readable then fin false true (out ++ rest) []
              else fin be11 s.connClosed out rest
            else if ws.get && ws.connUpgrade && ws.upgradeWs && ws101 && s.wsConn && s.wsUpg then
              if env.wsFail then ⟨.ok none, out ++ env.wsOut, [], true, true⟩
              else fin false true (out ++ env.wsOut) []
            else fin be11 s.connClosed out rest

/-- What the rest of `do_http` does with an accepted request: the outcome of `get_service` and
`select_backend`, and the work of the backend (/repo/src/http.c:4856-4919). -/
inductive Serve where
  /-- no service or backend: error reply -/
  | none (st : Status)
  /-- the reply is generated by pound (redirect, ACME, control, error, metrics);
  the result of the handler -/
  | internal (res : Option Status)
  /-- a regular backend: edits, response environment, and its input -/
  | regular (edit : Bytes → List Header → Option (Bytes × List Header)) (env : RespEnv)
      (beIn : Bytes)

/-- `force_http_10` (/repo/src/http.c:3529-3555). `MSIE` in the User-Agent header is a parameter
of the case 2. -/
def forceHttp10 (cfg : LstnCfg) (msie : Bool) : Bool :=
  match cfg.noHttps11 with
  | 1 => cfg.ssl
  | 2 => cfg.ssl && msie
  | _ => false

/-- One request on a client connection, as it was handled. -/
structure Handled where
  req : Accepted
  /-- bytes sent to the backend -/
  toBackend : Bytes
  /-- bytes sent to the client, not counting replies generated by pound -/
  toClient : Bytes
  /-- result: `none` is -1 -/
  res : Option Status
  /-- the response asked to close -/
  closed : Bool
  /-- unread client input -/
  rest : Bytes
deriving DecidableEq, Repr

/-- How processing of a connection ends. -/
inductive ConnEnd where
  | noRequest            -- client closed or sent garbage
  | errReply (st : Status)  -- error reply before the request was served
  | closed               -- after a request
  | ub
  | fuel
deriving DecidableEq, Repr

/-- Serving an accepted request (/repo/src/http.c:4878-4925). -/
def serve (cfg : LstnCfg) (sched : Nat → Nat) (a : Accepted) (sv : Serve) : Res Handled :=
  match sv with
  | .none st => .ok ⟨a, [], [], some st, true, a.rest⟩
  | .internal res => .ok ⟨a, [], [], res, a.scan.connClosed, a.rest⟩
  | .regular edit env beIn =>
    let r := sendToBackend sched edit a.line a.scan.headers
      (a.rl.version == 1 && a.scan.te == .chunked) a.scan.cl cfg.maxReq a.rest
    match r.fin with
    | .status .ok =>
      let q := backendResponse env a.scan.ws (beIn.length + 1) false (a.rl.meth == METH b!"HEAD")
        a.scan.connClosed false false false beIn []
      match q.fin with
      | .ub => .ub
      | .ok res => .ok ⟨a, r.out, q.out, res, q.connClosed, r.rest⟩
    | .status st => .ok ⟨a, r.out, [], some st, a.scan.connClosed, r.rest⟩
    | _ => .ub

/-- The request loop of `do_http` (/repo/src/http.c:4615-4945). `world i a` decides about the
`i`-th request. A result of -1 ends the loop; an error reply (`res ≠ OK`) sets `conn_closed`. -/
def doHttp (cfg : LstnCfg) (msie : Accepted → Bool) (sched : Nat → Nat)
    (world : Nat → Accepted → Serve) : Nat → Nat → Bytes → List Handled × ConnEnd
  | 0, _, _ => ([], .fuel)
  | fuel + 1, i, inp =>
    match acceptRequest cfg inp with
    | .noRequest => ([], .noRequest)
    | .err st => ([], .errReply st)
    | .ub => ([], .ub)
    | .ok a =>
      match world i a with
      | .none st => ([], .errReply st)
      | sv =>
        match serve cfg sched a sv with
        | .ub => ([], .ub)
        | .ok h =>
          let closed := h.closed || forceHttp10 cfg (msie a)
          match h.res with
          | Option.none => ([h], .closed)
          | some st =>
            let closed := closed || st != .ok
            if a.rl.version = 0 ∨ closed then ([h], .closed)
            else
              let (hs, e) := doHttp cfg msie sched world fuel (i + 1) h.rest
              (h :: hs, e)

end Pound
