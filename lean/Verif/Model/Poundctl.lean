import Verif.Model.Control
import Verif.Model.Replies
import Verif.Model.Bauth

/-!
The program poundctl: /repo/src/poundctl.c:236-491, 579-815, 835-1079, 1436-1454, and what pound answers on the control socket.

Elsewhere: options, the file ~/.poundctl and TLS (Model/CtlMain.lean), printing of the listing by templates (Model/TmplRun.lean).
Not modelled: the system calls that connect.  Memory
allocation succeeds, except for sizes that are negative.  Arguments are C strings: they contain no NUL.
-/

namespace Pound

/-! ### Finding the socket -/

/-- The names, lengths and flags of `keywords`, /repo/src/poundctl.c:245-260: `false` is the table `inline_keyword` -/
def ctlKeywords : Bool → List (Bytes × Nat)
  | false => [(b!"control", 1)]
  | true => [(b!"socket", 1), (b!"end", 0)]

/-- find_keyword, /repo/src/poundctl.c:262-270, for the word `arg` of length `len`: strncasecmp looks at `len` bytes of the name and stops
at its end.  `none` for -1. -/
def findKeyword (tab : Bool) (word : Bytes) : Option Nat :=
  ((ctlKeywords tab).find? fun k => ciEq (k.1.take word.length) word).map (·.2)

/-- The loop over a quoted string, /repo/src/poundctl.c:334-357, from the byte after the quote; `none` if the closing one is missing -/
def ctlQuoted : Bytes → Bytes → Option Bytes
  | [], _ => none
  | [c], acc => if c = ch%'"' then some acc else none
  | c :: d :: t, acc =>
    if c = ch%'"' then some acc
    else if c = ch%'\\' ∧ (d = ch%'\\' ∨ d = ch%'"') then ctlQuoted t (acc ++ [d])
    else ctlQuoted (d :: t) (acc ++ [c])

/-- One line (without its LF) of the configuration file, /repo/src/poundctl.c:309-371: go on with a table of keywords, or the result -/
def socketLine (tab : Bool) (line : Bytes) : Bool ⊕ Option Bytes :=
  let p := (rtrim line).dropWhile isSpace
  if p = [] ∨ p.head? = some ch%'#' then .inl tab
  else
    let word := p.takeWhile fun c => c != 32 && c != 9
    match findKeyword tab word with
    | some 0 => .inl false
    | some _ =>
      match (p.drop word.length).dropWhile isSpace with
      | [] => if tab then .inr none else .inl true
      | c :: t => if c = ch%'"' then .inr (ctlQuoted t []) else .inr none
    | none => .inl tab

/-- get_socket_name, /repo/src/poundctl.c:276-382, on the contents of the configuration file (no NUL in it): fgets delivers at most 4095
bytes, and a piece that does not end with LF ends the search. -/
def socketName : Nat → Bool → Bytes → Option Bytes
  | 0, _, _ => none
  | f + 1, tab, inp =>
    let line := inp.takeWhile fun c => c != 10
    match inp.drop line.length with
    | [] => none
    | _ :: rest =>
      if maxBuf - 2 < line.length then none
      else match socketLine tab line with
        | .inl tab => socketName f tab rest
        | .inr r => r

def getSocketName (file : Bytes) : Option Bytes := socketName (file.length + 1) false file

/-! ### The URL of the server -/

/-- Where to connect -/
inductive CtlAddr where
  | unix (name : Bytes)
  | inet (host port : Bytes)
deriving DecidableEq, Repr

/-- URL, /repo/src/poundctl.c:23-38 -/
structure CtlUrl where
  tls : Bool
  addr : CtlAddr
  host : Bytes
  path : Bytes
  user : Option Bytes
  pass : Option Bytes
deriving DecidableEq, Repr

/-- url_parse_host, /repo/src/poundctl.c:384-425.  `resolve v6 host port` tells whether getaddrinfo finds an address. -/
def urlParseHost (resolve : Bool → Bytes → Bytes → Bool) (tls : Bool) (user pass : Option Bytes) (str : Bytes) : Option CtlUrl :=
  let h := str.takeWhile (· != ch%'/')
  let path := str.drop h.length
  let v6 := h.head? == some ch%'[' && h.getLast? == some ch%']'
  let host := h.takeWhile (· != ch%':')
  let port := match h.drop host.length with
    | _ :: p => p
    | [] => if tls then b!"443" else b!"80"
  if resolve v6 host port then some ⟨tls, .inet host port, host, path, user, pass⟩ else none

/-- url_parse_creds, /repo/src/poundctl.c:427-450 -/
def urlParseCreds (resolve : Bool → Bytes → Bytes → Bool) (tls : Bool) (str : Bytes) : Option CtlUrl :=
  let u := str.takeWhile fun c => c != ch%':' && c != ch%'@'
  match str.drop u.length with
  | [] => urlParseHost resolve tls none none str
  | c :: rest =>
    if c = ch%'@' then urlParseHost resolve tls (some u) none rest
    else
      let p := rest.takeWhile (· != ch%'@')
      match rest.drop p.length with
      | [] => urlParseHost resolve tls none none str
      | _ :: rest => urlParseHost resolve tls (some u) (some p) rest

/-- url_parse_scheme and url_parse, /repo/src/poundctl.c:452-491; `none` if the program exits. -/
def urlParse (resolve : Bool → Bytes → Bytes → Bool) (str : Bytes) : Option CtlUrl :=
  let s := str.takeWhile (· != ch%':')
  match str.drop s.length with
  | 58 :: 47 :: 47 :: rest =>
    if s = b!"http" then urlParseCreds resolve false rest
    else if s = b!"https" then urlParseCreds resolve true rest
    else none
  | _ => if 108 < str.length then none else some ⟨false, .unix str, b!"localhost", [], none, none⟩

/-! ### Requests -/

/-- oi_getn, /repo/src/poundctl.c:588-605: the text after the number; `none` if the program exits.  `last` tells that idx is OI_BACKEND. -/
def oiGetn (last : Bool) (uri : Bytes) : Option Bytes :=
  let r := strtol10 uri
  if r.2.1 ∨ r.1 < 0 ∨ 2 ^ 31 - 1 < r.1 then none
  else match r.2.2 with
    | [] => some []
    | c :: t => if last = false ∧ c = ch%'/' then some (c :: t) else none

/-- check_uri after the listener, /repo/src/poundctl.c:626-645 -/
def checkUriSvc (uri : Bytes) : Option Nat :=
  match uri with
  | [] => some 1
  | c :: u =>
    if c ≠ ch%'/' then none
    else match oiGetn false u with
      | none => none
      | some [] => some 2
      | some (_ :: u) => if (oiGetn true u).isSome then some 3 else none

/-- check_uri, /repo/src/poundctl.c:607-646: objid[OI_LAST], `none` if the program exits -/
def checkUri (uri : Bytes) : Option Nat :=
  match uri with
  | [] => none
  | c :: u =>
    if c ≠ ch%'/' then none
    else if u.head? = some ch%'-' then checkUriSvc (u.drop 1)
    else match oiGetn false u with
      | none => none
      | some u => checkUriSvc u

/-- What BIO_f_base64 writes: lines of 64 characters of the encoded text, each ended by LF -/
def b64Lines : Nat → Bytes → Bytes
  | 0, _ => []
  | f + 1, t => if t = [] then [] else t.take 64 ++ [10] ++ b64Lines f (t.drop 64)

/-- The Authorization header, /repo/src/poundctl.c:847-874; `enc` is the base64 encoding. -/
def ctlAuth (enc : Bytes → Bytes) (u : CtlUrl) : Bytes :=
  match u.pass with
  | none => []
  | some p =>
    let t := enc (u.user.getD [] ++ b!":" ++ p)
    b!"Authorization: Basic " ++ ((b64Lines (t.length + 1) t).take maxBuf).dropLast ++ [13, 10]

/-- send_request, /repo/src/poundctl.c:835-877 -/
def ctlRequest (enc : Bytes → Bytes) (u : CtlUrl) (method what : Bytes) : Bytes :=
  method ++ b!" " ++ u.path ++ b!"/" ++ what ++ b!" HTTP/1.1" ++ [13, 10] ++ b!"Host: " ++ u.host ++ [13, 10] ++ ctlAuth enc u ++ [13, 10]

/-! ### Responses -/

/-- BIO_gets of a buffer of `n + 1` bytes: up to n bytes, up to and with LF -/
def bioGets : Nat → Bytes → Bytes × Bytes
  | 0, inp => ([], inp)
  | _ + 1, [] => ([], [])
  | n + 1, c :: t => if c = 10 then ([10], t) else (c :: (bioGets n t).1, (bioGets n t).2)

/-- One trailing byte `c` is removed -/
def chopEnd (c : UInt8) (s : Bytes) : Bytes := if s.getLast? = some c then s.dropLast else s

/-- xgets, /repo/src/poundctl.c:648-670: the line and the unread input; errors while reading are not modelled. -/
def xgets (inp : Bytes) : Bytes × Bytes :=
  (chopEnd 13 (chopEnd 10 (bioGets (maxBuf - 1) inp).1), (bioGets (maxBuf - 1) inp).2)

/-- read_response_line, /repo/src/poundctl.c:672-713, on the line read: the version and code; `none` if the program exits -/
def responseLine (line : Bytes) : Option (Nat × Int) :=
  let buf := line.takeWhile notNul
  if buf.take 7 = b!"HTTP/1." ∧ (buf[7]? = some 48 ∨ buf[7]? = some 49) ∧ ((buf[8]?).map isSpace = some true) then
    let p := (buf.drop 8).dropWhile isSpace
    let r := strtol10 p
    if r.1 ≤ 0 ∨ p.length - r.2.2.length ≠ 3 then none
    else some (((buf[7]?).getD 0 - 48).toNat, r.1)
  else none

/-- HDREQ and HDRVAL, /repo/src/poundctl.c:729-732: the text after the colon -/
def hdrVal (name s : Bytes) : Option Bytes :=
  if ciEq (s.take name.length) name ∧ s[name.length]? = some ch%':' then some (s.drop (name.length + 1)) else none

/-- Variables of read_response: content_length and conn_close -/
structure RespVars where
  len : Int := -1
  close : Bool := false
deriving DecidableEq, Repr

/-- One header line, /repo/src/poundctl.c:751-775; `none` if the program exits -/
def ctlRespHeader (v : RespVars) (line : Bytes) : Option RespVars :=
  let buf := line.takeWhile notNul
  match hdrVal b!"Content-Length" buf with
  | some x =>
    let r := strtol10 x
    if r.2.1 ∨ r.2.2 ≠ [] then none else some { v with len := r.1 }
  | none =>
    match hdrVal b!"Content-Type" buf with
    | some x => if x.dropWhile isWs = b!"application/json" then some v else none
    | none =>
      match hdrVal b!"Connection" buf with
      | some x => some { v with close := ciEq (x.dropWhile isWs) b!"close" }
      | none => some v

/-- The loop over the headers, /repo/src/poundctl.c:744-776 -/
def ctlRespHeaders : Nat → RespVars → Bytes → Option (RespVars × Bytes)
  | 0, _, _ => none
  | f + 1, v, inp =>
    let r := xgets inp
    if r.1 = [] then some (v, r.2)
    else match ctlRespHeader v r.1 with
      | none => none
      | some v => ctlRespHeaders f v r.2

/-- The content, /repo/src/poundctl.c:778-801, as a C string; `none` if the program exits.  `mem n` is what the `n` bytes delivered by malloc
contain.  A negative length other than -1 is more than malloc delivers.  A length above INT_MAX is not passed to BIO_read as it is: this is
not modelled. -/
def respContent (mem : Nat → Bytes) (ver : Nat) (v : RespVars) (inp : Bytes) : Option Bytes :=
  if v.len ≠ -1 then
    if v.len < 0 ∨ 2 ^ 31 ≤ v.len then none
    else
      let n := v.len.toNat
      let got := inp.take n
      some ((got ++ ((mem n).drop got.length).take (n - got.length)).takeWhile notNul)
  else if v.close ∨ ver = 0 then some (inp.takeWhile notNul)
  else none

/-- Outcome of reading the response: the value, or the program exits with 1 -/
inductive CtlResp (D : Type) where
  | value (v : JVal D)
  | fail
  /-- undefined, or the parser does not come to an end -/
  | ub

/-- read_response, /repo/src/poundctl.c:715-815 -/
def readResponse {D} (N : NumLib D) (mem : Nat → Bytes) (inp : Bytes) : CtlResp D :=
  let l := xgets inp
  match responseLine l.1 with
  | none => .fail
  | some (ver, code) =>
    if code ≠ 200 then .fail
    else match ctlRespHeaders (l.2.length + 1) {} l.2 with
      | none => .fail
      | some (v, rest) =>
        match respContent mem ver v rest with
        | none => .fail
        | some content =>
          match jsonParse N content with
          | .ok v _ => .value v
          | .ub => .ub
          | .hung => .ub
          | .err _ => .fail

/-! ### Commands -/

inductive CtlVerb where
  | list | disable | enable | delete | add
deriving DecidableEq, Repr

/-- dispatch, /repo/src/poundctl.c:1058-1068 -/
def ctlDispatch : List (Bytes × CtlVerb) :=
  [(b!"list", .list), (b!"disable", .disable), (b!"off", .disable), (b!"enable", .enable), (b!"on", .enable), (b!"delete", .delete),
   (b!"del", .delete), (b!"add", .add)]

/-- find_command, /repo/src/poundctl.c:1070-1079 -/
def findCommand (name : Bytes) : Option CtlVerb := (ctlDispatch.find? fun d => d.1 == name).map (·.2)

/-- The arguments of send_request in the command functions, /repo/src/poundctl.c:879-892, 910-927, 942-982, 1004-1027: method and text;
`none` if the function returns 1 or the program exits without sending. -/
def ctlSends : CtlVerb → List Bytes → Option (Bytes × Bytes)
  | .list, [] => some (b!"GET", b!"listener" ++ b!"/")
  | .list, [uri] => some (b!"GET", b!"listener" ++ uri)
  | .disable, [uri] => some (b!"DELETE", b!"listener" ++ uri)
  | .enable, [uri] => some (b!"PUT", b!"listener" ++ uri)
  | .delete, [uri, key] => if checkUri uri = some 2 then some (b!"DELETE", b!"session" ++ uri ++ b!"?key=" ++ key) else none
  | .add, [uri, key] => if checkUri uri = some 3 then some (b!"PUT", b!"session" ++ uri ++ b!"?key=" ++ key) else none
  | _, _ => none

/-- What the user sees: the exit code and the value that is listed -/
structure CtlOut (D : Type) where
  code : Nat
  listed : Option (JVal D)

/-- The end of the command functions, /repo/src/poundctl.c:892-907, 927-939, 982-1001, 1027-1046.  `canList` tells that the template is
defined or option -j was given; with -j the commands enable and disable list the value, too (not modelled). -/
def ctlFinish {D} (canList : Bool) : CtlVerb → CtlResp D → Res (CtlOut D)
  | _, .ub => .ub
  | _, .fail => .ok ⟨1, none⟩
  | .disable, .value (.bool b) => .ok ⟨if b then 0 else 1, none⟩
  | .disable, .value _ => .ok ⟨1, none⟩
  | .enable, .value (.bool b) => .ok ⟨if b then 0 else 1, none⟩
  | .enable, .value _ => .ok ⟨1, none⟩
  | _, .value v => if canList then .ok ⟨0, some v⟩ else .ok ⟨1, none⟩

/-- The end of main, /repo/src/poundctl.c:1436-1445: the command and its arguments; `none` if the usage is shown -/
def ctlCommand : List Bytes → Option (CtlVerb × List Bytes)
  | [] => some (.list, [])
  | name :: args => (findCommand name).map fun v => (v, args)

/-- poundctl run with these arguments after the options.  `server` is what is done with the request: the new state and the reply. -/
def poundctl {D σ} (N : NumLib D) (mem : Nat → Bytes) (enc : Bytes → Bytes) (canList : Bool) (u : CtlUrl) (server : σ → Bytes → Res (σ × Bytes)) (s : σ)
    (argv : List Bytes) : Res (σ × CtlOut D) :=
  match ctlCommand argv with
  | none => .ok (s, ⟨1, none⟩)
  | some (v, args) =>
    match ctlSends v args with
    | none => .ok (s, ⟨1, none⟩)
    | some (method, what) =>
      match server s (ctlRequest enc u method what) with
      | .ub => .ub
      | .ok (s, reply) =>
        match ctlFinish canList v (readResponse N mem reply) with
        | .ub => .ub
        | .ok out => .ok (s, out)

/-! ### The server -/

/-- The reply written by send_json_reply, /repo/src/svc.c:2429-2436 -/
def jsonReply (text : Bytes) : Bytes :=
  b!"HTTP/1.1 200 OK" ++ [13, 10] ++ b!"Content-Type: application/json" ++ [13, 10] ++ b!"Content-Length: " ++ dec text.length ++ [13, 10] ++
  b!"Connection: close" ++ [13, 10] ++ [13, 10] ++ text

/-- Methods as seen by find_endpoint (/repo/src/svc.c:2993) -/
def cmethOf (m : Nat) : CMeth :=
  if m = METH b!"GET" then .get else if m = METH b!"PUT" then .put else if m = METH b!"DELETE" then .delete else .other m

/-- The parts of the server that are parameters: the listings (`show`, see Model/Control.lean), and pages of error replies -/
structure CtlServer (D : Type) where
  num : NumLib D
  cfg : LstnCfg
  shows : Conf → Shown → JVal D
  page : Status → Bytes

/-- The requests of a connection to the control socket, one after the other (/repo/src/http.c:4615-4945 with control_response, :765-776, and
the only service of the listener, /repo/src/config.c:4262-4271, which has neither conditions nor rewriting rules): the new state and what is written to the client. -/
def ctlServe {D} (E : CtlServer D) (now : TS) : Nat → Conf → Bytes → Res (Conf × Bytes)
  | 0, c, _ => .ok (c, [])
  | f + 1, c, inp =>
    match acceptRequest E.cfg inp with
    | .noRequest => .ok (c, [])
    | .err st => .ok (c, errReply (errVersion E.cfg inp) st (E.page st))
    | .ub => .ub
    | .ok a =>
      match controlResponse now c (cmethOf a.rl.meth) a.rl.url with
      | .ub => .ub
      | .ok (c', r) =>
        match r.shown with
        | none => .ok (c', errReply a.rl.version r.status (E.page r.status))
        | some (v, ind) =>
          let reply := jsonReply (fmtVal E.num ind 0 (E.shows c' v))
          if a.rl.version = 0 ∨ a.scan.connClosed then .ok (c', reply)
          else match ctlServe E now f c' a.rest with
            | .ub => .ub
            | .ok (c'', more) => .ok (c'', reply ++ more)

/-- poundctl used with a server -/
def ctlSession {D} (E : CtlServer D) (mem : Nat → Bytes) (enc : Bytes → Bytes) (canList : Bool) (u : CtlUrl) (now : TS) (c : Conf) (argv : List Bytes) :
    Res (Conf × CtlOut D) :=
  poundctl E.num mem enc canList u (fun c inp => ctlServe E now (inp.length + 1) c inp) c argv

end Pound
