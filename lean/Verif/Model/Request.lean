import Verif.Model.Framing

/-!
Model of request-line parsing and of the URL / query views of a request
(/repo/src/http.c).
-/

namespace Pound

/-- The method constants, in order. Models the anonymous enum, /repo/src/pound.h:223-255:
the constant `METH_X` is the position of `X` in this list. -/
def methEnum : List Bytes :=
  [b!"GET",
   b!"POST",
   b!"HEAD",
   b!"PUT",
   b!"PATCH",
   b!"DELETE",
   b!"LOCK",
   b!"UNLOCK",
   b!"PROPFIND",
   b!"PROPPATCH",
   b!"SEARCH",
   b!"MKCOL",
   b!"MOVE",
   b!"COPY",
   b!"OPTIONS",
   b!"TRACE",
   b!"MKACTIVITY",
   b!"CHECKOUT",
   b!"MERGE",
   b!"REPORT",
   b!"SUBSCRIBE",
   b!"UNSUBSCRIBE",
   b!"BPROPPATCH",
   b!"POLL",
   b!"BMOVE",
   b!"BCOPY",
   b!"BDELETE",
   b!"BPROPFIND",
   b!"NOTIFY",
   b!"CONNECT"]

/-- Value of the constant METH_x (/repo/src/pound.h:223-255). -/
def METH (name : Bytes) : Nat := methEnum.findIdx (· == name)

/-- `struct method_def` (/repo/src/http.c:1664-1670); the `length` member is that of
the name. -/
structure MethodDef where
  name : Bytes
  meth : Nat
  group : Nat
deriving Repr, DecidableEq

/-- The table `methods` (/repo/src/http.c:1672-1706) without its NULL terminator. -/
def methods : List MethodDef :=
  [⟨b!"GET", METH b!"GET", 0⟩,
   ⟨b!"POST", METH b!"POST", 0⟩,
   ⟨b!"HEAD", METH b!"HEAD", 0⟩,
   ⟨b!"PUT", METH b!"PUT", 1⟩,
   ⟨b!"PATCH", METH b!"PATCH", 1⟩,
   ⟨b!"DELETE", METH b!"DELETE", 1⟩,
   ⟨b!"LOCK", METH b!"LOCK", 2⟩,
   ⟨b!"UNLOCK", METH b!"UNLOCK", 2⟩,
   ⟨b!"PROPFIND", METH b!"PROPFIND", 2⟩,
   ⟨b!"PROPPATCH", METH b!"PROPPATCH", 2⟩,
   ⟨b!"SEARCH", METH b!"SEARCH", 2⟩,
   ⟨b!"MKCOL", METH b!"MKCOL", 2⟩,
   ⟨b!"MOVE", METH b!"MOVE", 2⟩,
   ⟨b!"COPY", METH b!"COPY", 2⟩,
   ⟨b!"OPTIONS", METH b!"OPTIONS", 2⟩,
   ⟨b!"TRACE", METH b!"TRACE", 2⟩,
   ⟨b!"MKACTIVITY", METH b!"MKACTIVITY", 2⟩,
   ⟨b!"CHECKOUT", METH b!"CHECKOUT", 2⟩,
   ⟨b!"MERGE", METH b!"MERGE", 2⟩,
   ⟨b!"REPORT", METH b!"REPORT", 2⟩,
   ⟨b!"SUBSCRIBE", METH b!"SUBSCRIBE", 3⟩,
   ⟨b!"UNSUBSCRIBE", METH b!"UNSUBSCRIBE", 3⟩,
   ⟨b!"BPROPPATCH", METH b!"BPROPPATCH", 3⟩,
   ⟨b!"POLL", METH b!"POLL", 3⟩,
   ⟨b!"BMOVE", METH b!"BMOVE", 3⟩,
   ⟨b!"BCOPY", METH b!"BCOPY", 3⟩,
   ⟨b!"BDELETE", METH b!"BDELETE", 3⟩,
   ⟨b!"BPROPFIND", METH b!"BPROPFIND", 3⟩,
   ⟨b!"NOTIFY", METH b!"NOTIFY", 3⟩,
   ⟨b!"CONNECT", METH b!"CONNECT", 3⟩]

/-- `find_method` (/repo/src/http.c:1708-1719). -/
def findMethod (s : Bytes) : Option MethodDef :=
  methods.find? fun m => s.length == m.name.length && ciEq m.name s

/-- `methods[meth].name` (/repo/src/http.c:1721-1727 `method_name`, 2221). The
terminating entry, reached with `meth = 30`, has a NULL name. -/
def methodName (meth : Nat) : Option Bytes := (methods[meth]?).map (·.name)

/-- What `parse_http_request` stores on success. -/
structure ReqLine where
  meth : Nat
  url : Bytes
  version : Nat
deriving Repr, DecidableEq

/-- Outcome of parsing the request line: parsed, or an error status. -/
inductive ReqLineRes where
  | ok (r : ReqLine)
  | err (st : Status)
deriving Repr, DecidableEq

/-- Not a space; `strcspn (s, " ")` is the length of `s.takeWhile notSp`. -/
def notSp (c : UInt8) : Bool := c != 32
/-- A space; `strspn (s, " ")` is the length of `s.takeWhile isSp`. -/
def isSp (c : UInt8) : Bool := c == 32

/-- `parse_http_request` (/repo/src/http.c:2931-2984). `malloc` does not fail.
The argument is the request line (no NUL in it, since it was read by `get_line`). -/
def parseHttpRequest (str : Bytes) (group : Nat) : ReqLineRes :=
  let m := str.takeWhile notSp
  if m.length = 0 then .err .badRequest else
  match findMethod m with
  | none => .err .badRequest
  | some md =>
    let status : Status := if md.group > group then .methodNotAllowed else .ok
    let str := (str.drop m.length).dropWhile isSp
    match str with
    | [] => .err .badRequest
    | _ =>
      let url := str.takeWhile notSp
      let str := (str.drop url.length).dropWhile isSp
      if str.take 7 = b!"HTTP/1." ∧ (str[7]? = some 48 ∨ str[7]? = some 49) ∧ str.length = 8 then
        if status = .ok then
          .ok ⟨md.meth, url, ((str[7]?).getD 0 - 48).toNat⟩
        else .err status
      else .err .badRequest

/-- The part of `struct http_request` (/repo/src/pound.h:386-401) that concerns the
request line: `params` is the list `query_head`, `query`'s NULL is `none`. -/
structure Req where
  /-- `req->request`, the line to be sent -/
  request : Bytes
  /-- `req->orig_request_line` -/
  orig : Option Bytes
  meth : Nat
  version : Nat
  url : Bytes
  path : Bytes
  query : Option Bytes
  params : List (Bytes × Option Bytes)
  split : Bool
deriving Repr, DecidableEq

/-- The search loop of `http_request_split` (/repo/src/http.c:2175-2184): scan `url` from
index `i` down to index 1 for a question mark. -/
def findQmark (url : Bytes) : Nat → Option Nat
  | 0 => none
  | i+1 => if url[i+1]? = some ch%'?' then some (i+1) else findQmark url i

/-- `http_request_split` (/repo/src/http.c:2165-2214). `malloc` does not fail. -/
def Req.doSplit (r : Req) : Req :=
  if r.split then
    let urlLen := r.url.length
    match findQmark r.url urlLen with
    | none => { r with path := r.url, query := none, params := [], split := false }
    | some p =>
      let q := r.url.drop (p + 1)
      { r with path := r.url.take p,
               query := if q.length > 0 then some q else none,
               params := [], split := false }
  else r

/-- `http_request_rebuild_line` (/repo/src/http.c:2216-2243). -/
def Req.rebuildLine (r : Req) : Req :=
  let str := (methodName r.meth).getD [] ++ b!" " ++ r.url ++ b!" " ++ b!"HTTP/1." ++
    [UInt8.ofNat (r.version + 48)]
  { r with orig := some (r.orig.getD r.request), request := str }

/-- `http_request_rebuild_url` (/repo/src/http.c:2245-2267). -/
def Req.rebuildUrl (r : Req) : Req :=
  let url := r.path ++ (match r.query with | some q => b!"?" ++ q | none => [])
  { r with url := url }.rebuildLine

/-- The loop of `http_request_rebuild_query` (/repo/src/http.c:2277-2290);
`more` tells whether a parameter was already written. -/
def renderLoop (more : Bool) : List (Bytes × Option Bytes) → Bytes
  | [] => []
  | (n, v) :: t =>
    (if more then b!"&" else []) ++ n ++
    (match v with | some v => b!"=" ++ v | none => []) ++ renderLoop true t

/-- `http_request_rebuild_query` (/repo/src/http.c:2269-2301). -/
def Req.rebuildQuery (r : Req) : Req :=
  { r with query := some (renderLoop false r.params) }.rebuildUrl

/-- `http_request_set_url` (/repo/src/http.c:2325-2340). -/
def Req.setUrl (r : Req) (url : Bytes) : Req :=
  { r with url := url, split := true }.rebuildLine

/-- `http_request_get_path` (/repo/src/http.c:2342-2349). -/
def Req.getPath (r : Req) : Req × Bytes := (r.doSplit, r.doSplit.path)

/-- `http_request_set_path` (/repo/src/http.c:2351-2371). -/
def Req.setPath (r : Req) (path : Bytes) : Req :=
  { r.doSplit with path := path }.rebuildUrl

/-- `http_request_get_query` (/repo/src/http.c:2373-2380). -/
def Req.getQuery (r : Req) : Req × Option Bytes := (r.doSplit, r.doSplit.query)

/-- Not an ampersand; `strcspn (s, "&")` is the length of `s.takeWhile notAmp`. -/
def notAmp (c : UInt8) : Bool := c != ch%'&'
/-- Not an equals sign (`memchr (query, '=', pl)`). -/
def notEq (c : UInt8) : Bool := c != ch%'='

/-- Body of the loop of `http_request_parse_query` (/repo/src/http.c:2415-2448): split one
parameter at its first equals sign. -/
def parseParam (p : Bytes) : Bytes × Option Bytes :=
  let n := p.takeWhile notEq
  (n, if n.length < p.length then some (p.drop (n.length + 1)) else none)

/-- Loop of `http_request_parse_query` (/repo/src/http.c:2409-2455). -/
def parseQuery (q : Bytes) : List (Bytes × Option Bytes) :=
  match q with
  | [] => []
  | c :: t =>
    let p := (c :: t).takeWhile notAmp
    parseParam p :: parseQuery ((c :: t).drop (p.length + 1))
termination_by q.length
decreasing_by simp only [List.length_drop, List.length_cons]; omega

/-- The first half of `http_request_get_query_param` (/repo/src/http.c:2466-2471) and
`http_request_parse_query` (2400-2459): make sure the parameter list is there. -/
def Req.loadParams (r : Req) : Req :=
  let r := r.doSplit
  if r.params.isEmpty then
    match r.query with
    | some q => { r with params := r.params ++ parseQuery q }
    | none => r
  else r

/-- `http_request_get_query_param` and `_value` (/repo/src/http.c:2461-2493): the value of
the first parameter of that name. The outer option is RETRIEVE_OK / NOT_FOUND. -/
def Req.getParam (r : Req) (name : Bytes) : Req × Option (Option Bytes) :=
  let r := r.loadParams
  (r, (r.params.find? (fun p => p.1 == name)).map (·.2))

/-- `http_request_set_query` (/repo/src/http.c:2495-2511). -/
def Req.setQuery (r : Req) (raw : Bytes) : Req :=
  { r.doSplit with query := some raw, params := [] }.rebuildUrl

/-- Remove the first parameter of that name (`DLIST_REMOVE` of the node found,
/repo/src/http.c:2548-2552). -/
def removeFirst (name : Bytes) : List (Bytes × Option Bytes) → List (Bytes × Option Bytes)
  | [] => []
  | p :: t => if p.1 == name then t else p :: removeFirst name t

/-- Replace the value in the first parameter of that name (in-place update of the
node found, /repo/src/http.c:2553-2562). -/
def replaceFirst (name v : Bytes) : List (Bytes × Option Bytes) → List (Bytes × Option Bytes)
  | [] => []
  | p :: t => if p.1 == name then (p.1, some v) :: t else p :: replaceFirst name v t

/-- `http_request_set_query_param` (/repo/src/http.c:2513-2570). -/
def Req.setParam (r : Req) (name : Bytes) (v : Option Bytes) : Req :=
  let (r, found) := r.getParam name
  match found, v with
  | none, none => r
  | none, some v => { r with params := r.params ++ [(name, some v)] }.rebuildQuery
  | some _, none => { r with params := removeFirst name r.params }.rebuildQuery
  | some _, some v => { r with params := replaceFirst name v r.params }.rebuildQuery

/-- The request right after `http_request_read` and `parse_http_request`
(/repo/src/http.c:2667-2718, 2968-2981). -/
def Req.fresh (line : Bytes) (rl : ReqLine) : Req :=
  { request := line, orig := none, meth := rl.meth, version := rl.version, url := rl.url,
    path := [], query := none, params := [], split := true }

end Pound
