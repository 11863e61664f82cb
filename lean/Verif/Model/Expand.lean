import Verif.Model.Headers
import Verif.Model.Request

/-!
Model of the submatch history, of string expansion with its request accessors, and of
the redirect responses (/repo/src/http.c).

Allocation does not fail; log messages are not modelled.
-/

namespace Pound

/-- `struct submatch` (/repo/src/pound.h:902-908). `matchv` lists the `matchmax` elements
that are allocated; a match offset is a pair `rm_so`, `rm_eo`. -/
structure Submatch where
  subject : Option Bytes
  matchn : Nat
  matchv : List (Int × Int)
deriving DecidableEq, Repr

/-- `submatch_init` (/repo/src/pound.h:920-927). -/
def Submatch.init : Submatch := ⟨none, 0, []⟩

/-- SMQ_SIZE (/repo/src/pound.h:910). -/
def smqSize : Nat := 8

/-- `struct submatch_queue` (/repo/src/pound.h:912-916). -/
structure Smq where
  cur : Nat
  sm : List Submatch
deriving DecidableEq, Repr

/-- The queue of a new connection: zero-filled (/repo/src/pound.c:290-293). The array has
SMQ_SIZE+1 elements (/repo/src/pound.h:915). -/
def Smq.init : Smq := ⟨0, List.replicate (smqSize + 1) .init⟩

/-- `submatch_queue_get` (/repo/src/http.c:296-300); undefined outside of the array. -/
def Smq.get (q : Smq) (n : Nat) : Res Submatch :=
  match q.sm[(q.cur + smqSize - n) % smqSize]? with
  | some s => .ok s
  | none => .ub

/-- `submatch_queue_push` (/repo/src/http.c:302-310) with `submatch_reset` (276-282). -/
def Smq.push (q : Smq) : Smq :=
  let cur := (q.cur + 1) % smqSize
  { cur := cur, sm := q.sm.modify cur fun s => { s with subject := none, matchn := 0 } }

/-- What `genpat_match` says about a subject: NULL offsets for a failure; otherwise the offsets
of the groups, of which there are `genpat_nsub` (/repo/src/genpat.c:68-80). The pattern
matcher itself is a parameter. -/
structure MatchRes where
  ok : Bool
  groups : List (Int × Int)
deriving DecidableEq, Repr

/-- `submatch_exec` (/repo/src/http.c:312-330) with `submatch_free` (268-274) and
`submatch_realloc` (253-266), on the outcome of `genpat_match`. -/
def submatchExec (m : MatchRes) (subject : Bytes) : Submatch :=
  { subject := if m.ok then some subject else none, matchn := m.groups.length, matchv := m.groups }

/-- `submatch_exec (re, subject, submatch_queue_push (smq))` (/repo/src/http.c:3132-3133). -/
def Smq.record (q : Smq) (m : MatchRes) (subject : Bytes) : Smq :=
  let q := q.push
  { q with sm := q.sm.modify (q.cur % smqSize) fun _ => submatchExec m subject }

/-- The bytes `sm->subject + matchv[g].rm_so`, `rm_eo - rm_so` of them
(/repo/src/http.c:686-687). An unset group has the offsets -1, -1 and adds nothing. Undefined
if `g` is not below `matchmax` or the offsets are not in the subject. -/
def Submatch.groupText (s : Submatch) (subject : Bytes) (g : Nat) : Res Bytes :=
  match s.matchv[g]? with
  | none => .ub
  | some (so, eo) =>
    if so = eo then .ok []
    else if 0 ≤ so ∧ so ≤ eo ∧ eo ≤ subject.length then
      .ok ((subject.drop so.toNat).take (eo - so).toNat)
    else .ub

/-- `strtoul (s, &end, 10)` on a 64-bit system: leading white space, optional sign, digits.
The value is `none` if `errno` is set; the second component is `end`. -/
def strtoul10 (s : Bytes) : Option Nat × Bytes :=
  let t := s.dropWhile isSpace
  let neg := t.head? = some ch%'-'
  let u := if neg ∨ t.head? = some ch%'+' then t.drop 1 else t
  let ds := u.takeWhile isDigit
  if ds.length = 0 then (some 0, s)
  else
    let v := ds.foldl (fun a c => a * 10 + (c.toNat - 48)) 0
    (if v < 2 ^ 64 then some (if neg then (2 ^ 64 - v) % 2 ^ 64 else v) else none, u.drop ds.length)

/-- Result of looking up and calling a request accessor. -/
inductive AccRes where
  /-- `find_accessor` returns NULL -/
  | unknown
  /-- the accessor fails, or gives NULL -/
  | absent
  | val (v : Bytes)
  /-- `val` is used uninitialised -/
  | ub
  /-- endless loop -/
  | stuck
deriving DecidableEq, Repr

/-- The table `accessors` (/repo/src/http.c:460-469): name, and whether it takes an argument. -/
def accessorTable : List (Bytes × Bool) :=
  [(b!"url", false), (b!"path", false), (b!"query", false), (b!"param", true),
   (b!"header", true), (b!"host", false), (b!"port", false)]

/-- Result of `find_accessor`. -/
inductive FindAcc where
  | none
  | found (name arg : Bytes)
  | stuck
deriving DecidableEq, Repr

/-- `find_accessor` (/repo/src/http.c:475-536). The loop 515-520 does not change its operand,
so it never ends if the argument ends with white space. `input[len]` is the closing bracket. -/
def findAccessor (input : Bytes) : FindAcc :=
  let s := input.dropWhile isWs
  if s.length = 0 then .none else
  let nm := s.takeWhile (fun c => !isWs c)
  match accessorTable.find? (fun a => a.1 == nm) with
  | none => .none
  | some (_, arg) =>
    let t := s.drop nm.length
    if arg then
      match t with
      | [] => .none
      | _ :: t =>
        let a := t.dropWhile isSpace
        match a.getLast? with
        | none => .none
        | some c => if isSpace c then .stuck else .found nm a
    else if (t.dropWhile isSpace).length = 0 then .found nm [] else .none

/-- `http_header_list_locate_name` with a length (/repo/src/http.c:2026-2040). -/
def locateNameLen (hs : List Header) (nm : Bytes) : Option Header :=
  hs.find? fun h => h.name.length == nm.length && ciEq h.name nm

/-- `accessor_header` (/repo/src/http.c:404-416). -/
def accHeader (hs : List Header) (nm : Bytes) : AccRes :=
  match locateNameLen hs nm with
  | none => .absent
  | some h => match h.value with
    | .ok v => .val v
    | .ub => .ub

/-- The accessor functions (/repo/src/http.c:346-462), called as in
`expand_string_to_buffer` (614): the variable `val` is not initialised, so an accessor that
succeeds without setting it has undefined behaviour. Reading a part of the request splits the
URL as a side effect; this changes no value read later (`C07_reading_is_pure`) and is left out. -/
def callAccessor (r : Req) (hs : List Header) (name arg : Bytes) : AccRes :=
  if name = b!"url" then .val r.url
  else if name = b!"path" then .val r.getPath.2
  else if name = b!"query" then
    match r.getQuery.2 with
    | some q => .val q
    | none => .ub
  else if name = b!"param" then
    match (r.getParam arg).2 with
    | some (some v) => .val v
    | _ => .absent
  else if name = b!"header" then accHeader hs arg
  else
    match accHeader hs b!"host" with
    | .val v =>
      let h := v.takeWhile notColon
      .val (if name = b!"host" then h else v.drop h.length)
    | x => x

/-- `find_accessor` followed by the call (/repo/src/http.c:602-611). -/
def accessor (r : Req) (hs : List Header) (input : Bytes) : AccRes :=
  match findAccessor input with
  | .none => .unknown
  | .stuck => .stuck
  | .found nm arg => callAccessor r hs nm arg

/-- What the expansion reads: the submatch history, and the request, if there is one
(as the map from the text in `%[...]` to its value). -/
structure ExpEnv where
  smq : Smq
  acc : Option (Bytes → AccRes)

/-- Change of the variable `result` (/repo/src/http.c:559). -/
inductive Upd where
  | same
  | inc
  | fail
deriving DecidableEq, Repr

/-- Effect on `result`: -1 is final. -/
def Upd.apply (u : Upd) (r : Int) : Int :=
  match u with
  | .same => r
  | .inc => if 0 ≤ r then r + 1 else r
  | .fail => -1

/-- Effect of one pass of the loop after plain text has been copied: `emit t rest u` adds `t` to
the buffer and goes on at `rest`. -/
inductive ExpStep where
  | emit (t rest : Bytes) (u : Upd)
  | ub
  | stuck
deriving DecidableEq, Repr

/-- What stands between the pointers `s` and `p`, the latter given by the string it points to. -/
def upTo (s p : Bytes) : Bytes := s.take (s.length - p.length)

/-- Insertion of a group (/repo/src/http.c:682-702): `str` is the reference, `p` what follows. -/
def expGroup (env : ExpEnv) (str p : Bytes) (refno groupno : Nat) : ExpStep :=
  match env.smq.get refno with
  | .ub => .ub
  | .ok sm =>
    match sm.subject with
    | some subj =>
      if groupno ≤ sm.matchn then
        match sm.groupText subj groupno with
        | .ok t => .emit t p .inc
        | .ub => .ub
      else .emit (upTo str p) p .fail
    | none => .emit (upTo str p) p .fail

/-- A reference after its group number has been read (/repo/src/http.c:628-703): `p` is what
follows the number. -/
def expRef (env : ExpEnv) (str p : Bytes) (brace : Bool) (groupno : Nat) : ExpStep :=
  let dollar := str.head? = some ch%'$'
  let close (p : Bytes) (refno : Nat) : ExpStep :=
    if brace then
      match p with
      | c :: p' => if c = ch%'}' then expGroup env str p' refno groupno else .emit (upTo str p) p .fail
      | [] => .emit (upTo str p) p .fail
    else expGroup env str p refno groupno
  if dollar ∧ p.head? = some ch%'(' then
    match strtoul10 (p.drop 1) with
    | (none, p) => .emit (upTo str p) p .fail
    | (some n, p) =>
      match p with
      | c :: p' =>
        if c = ch%')' then
          if n ≥ smqSize then .emit (upTo str p) p .fail else close p' n
        else .emit (upTo str p) p .fail
      | [] => .emit (upTo str p) p .fail
  else close p (if dollar then 0 else 1)

/-- Not a closing bracket; `strchr (s, ']')` points to `s.dropWhile notBracket`. -/
def notBracket (c : UInt8) : Bool := c != ch%']'

/-- One pass of the loop of `expand_string_to_buffer` at `str`, which starts with a dollar or
percent sign (/repo/src/http.c:561-713). `str += 2` at a sign that ends the string leaves the
string: undefined. -/
def expandStep (env : ExpEnv) (str : Bytes) : ExpStep :=
  match str with
  | [] => .ub -- not reachable
  | [_] => .ub
  | a :: b :: t =>
    if a = ch%'$' ∧ (b = ch%'$' ∨ b = ch%'%') then .emit [a] t .same
    else if a = ch%'%' ∧ isXDigit b = true ∧ (t.head?.map isXDigit) = some true then
      .emit (str.take 3) (str.drop 3) .same
    else if env.acc.isSome ∧ a = ch%'%' ∧ b = ch%'[' then
      let nm := t.takeWhile notBracket
      match t.drop nm.length with
      | [] => .emit (str.take 2) t .fail
      | _ :: rest =>
        match env.acc with
        | none => .ub -- not reachable
        | some acc =>
          match acc nm with
          | .unknown => .emit (upTo str rest) rest .same
          | .absent => .emit [] rest .same
          | .val v => .emit v rest .inc
          | .ub => .ub
          | .stuck => .stuck
    else if b = ch%'{' ∨ isDigit b = true then
      match strtoul10 (if b = ch%'{' then t else b :: t) with
      | (none, _) => .emit (str.take 2) t .same
      | (some g, p) => expRef env str p (b == ch%'{') g
    else .emit [a] (b :: t) .fail

/-- Result of `expand_string_to_buffer`: contents of the buffer and return value. -/
inductive ExpRes where
  | ok (out : Bytes) (result : Int)
  | ub
  | stuck
deriving DecidableEq, Repr

/-- Not a dollar or percent sign; `strcspn (s, "$%")` is the length of `s.takeWhile notSign`. -/
def notSign (c : UInt8) : Bool := c != ch%'$' && c != ch%'%'

/-- The loop of `expand_string_to_buffer` (/repo/src/http.c:563-714). The fuel bounds the number of
passes; every pass consumes a byte (`expandLoop_fuel`). -/
def expandLoop (env : ExpEnv) : Nat → Bytes → Bytes → Int → ExpRes
  | 0, _, _, _ => .stuck
  | fuel + 1, str, out, r =>
    let lit := str.takeWhile notSign
    match str.drop lit.length with
    | [] => .ok (out ++ lit) r
    | c :: s =>
      match expandStep env (c :: s) with
      | .emit t rest u => expandLoop env fuel rest (out ++ lit ++ t) (u.apply r)
      | .ub => .ub
      | .stuck => .stuck

/-- `expand_string_to_buffer` (/repo/src/http.c:552-715). -/
def expandToBuffer (env : ExpEnv) (str : Bytes) : ExpRes :=
  expandLoop env (str.length + 1) str [] 0

/-- Result of `expand_string` and `expand_url`: a string or NULL. -/
inductive StrRes where
  | str (s : Bytes)
  | null
  | ub
  | stuck
deriving DecidableEq, Repr

/-- `expand_string` (/repo/src/http.c:717-729). -/
def expandString (env : ExpEnv) (str : Bytes) : StrRes :=
  match expandToBuffer env str with
  | .ok out r => if r = -1 then .null else .str out
  | .ub => .ub
  | .stuck => .stuck

/-- `expand_url` (/repo/src/http.c:731-760). -/
def expandUrl (env : ExpEnv) (reqUrl url : Bytes) (hasUri : Bool) : StrRes :=
  match expandToBuffer env url with
  | .ok out r =>
    if r = -1 then .null
    else .str (if hasUri ∨ r ≠ 0 then out else out ++ reqUrl)
  | .ub => .ub
  | .stuck => .stuck

/-- Digit of `%x`. -/
def hexDigit (n : Nat) : UInt8 := UInt8.ofNat (if n < 10 then 48 + n else 87 + n)

/-- `%%%02x` of a `char` (/repo/src/http.c:850): the argument is promoted to `int`, so a byte above
127 (`char` is signed) prints as eight digits. -/
def pctChar (c : UInt8) : Bytes :=
  if c < 128 then [ch%'%', hexDigit (c.toNat / 16), hexDigit (c.toNat % 16)]
  else b!"%ffffff" ++ [hexDigit (c.toNat / 16), hexDigit (c.toNat % 16)]

/-- Characters of a URL that are sent as they are (/repo/src/http.c:840-844). `isalnum` of a negative
`char` is taken as false. -/
def urlSafe (c : UInt8) : Bool :=
  isAlnum c || c == ch%'_' || c == ch%'.' || c == ch%':' || c == ch%'/' || c == ch%'?' ||
  c == ch%'&' || c == ch%';' || c == ch%'-' || c == ch%'='

/-- The sanitising loop of `redirect_response` (/repo/src/http.c:838-847). -/
def sanitize (url : Bytes) : Bytes := url.flatMap fun c => if urlSafe c then [c] else pctChar c

/-- Digits of `%d` / `%lld` for a number that is not negative. -/
def decAux : Nat → Nat → Bytes
  | 0, _ => []
  | f + 1, n => (if n < 10 then [] else decAux f (n / 10)) ++ [UInt8.ofNat (48 + n % 10)]

/-- `%d` of a number that is not negative. -/
def dec (n : Nat) : Bytes := decAux (n + 1) n

/-- `bio_http_reply_start` (/repo/src/http.c:30-48). The headers argument NULL is the empty text. -/
def replyStart (proto code : Nat) (text headers type : Bytes) (len : Nat) : Bytes :=
  b!"HTTP/1." ++ dec proto ++ b!" " ++ dec code ++ b!" " ++ text ++ [13, 10] ++
  b!"Content-Type: " ++ type ++ [13, 10] ++
  (if proto = 1 then
     b!"Content-Length: " ++ dec len ++ [13, 10] ++ b!"Connection: close" ++ [13, 10] else []) ++
  headers ++ [13, 10]

/-- `bio_http_reply` (/repo/src/http.c:73-82): what is written to the client. -/
def httpReply (proto code : Nat) (text headers type content : Bytes) : Bytes :=
  replyStart proto code text headers type content.length ++ content

/-- The switch on the code in `redirect_response` (/repo/src/http.c:791-820). -/
def redirectText (code : Nat) : Option Bytes :=
  if code = 301 then some b!"Moved Permanently"
  else if code = 302 then some b!"Found"
  else if code = 303 then some b!"See Other"
  else if code = 307 then some b!"Temporary Redirect"
  else if code = 308 then some b!"Permanent Redirect"
  else none

/-- Result of `redirect_response`: what is written, or an error status. -/
inductive RedirRes where
  | sent (reply : Bytes)
  | err (st : Status)
  | ub
  | stuck
deriving DecidableEq, Repr

/-- `redirect_response` (/repo/src/http.c:778-897) after the rewriting rules have been applied. -/
def redirectResponse (env : ExpEnv) (reqUrl : Bytes) (version code : Nat) (target : Bytes)
    (hasUri : Bool) : RedirRes :=
  match redirectText code with
  | none => .err .internalError
  | some msg =>
    match expandUrl env reqUrl target hasUri with
    | .null => .err .internalError
    | .ub => .ub
    | .stuck => .stuck
    | .str xurl =>
      let url := sanitize xurl
      let cont := b!"<html><head><title>Redirect</title></head><body><h1>Redirect</h1>" ++
        b!"<p>You should go to <a href=\"" ++ url ++ b!"\">" ++ url ++ b!"</a></p></body></html>"
      .sent (httpReply version code msg (b!"Location: " ++ url ++ [13, 10]) b!"text/html" cont)

/-- Code and reason phrase in the table `http_status` (/repo/src/http.c:94-156). -/
def statusInfo : Status → Nat × Bytes
  | .ok => (200, b!"OK")
  | .badRequest => (400, b!"Bad Request")
  | .unauthorized => (401, b!"Unauthorized")
  | .forbidden => (403, b!"Forbidden")
  | .notFound => (404, b!"Not Found")
  | .methodNotAllowed => (405, b!"Method Not Allowed")
  | .payloadTooLarge => (413, b!"Payload Too Large")
  | .uriTooLong => (414, b!"URI Too Long")
  | .internalError => (500, b!"Internal Server Error")
  | .notImplemented => (501, b!"Not Implemented")
  | .serviceUnavailable => (503, b!"Service Unavailable")

/-- `err_headers` (/repo/src/http.c:158-161). -/
def errHeaders : Bytes :=
  b!"Expires: now" ++ [13, 10] ++ b!"Pragma: no-cache" ++ [13, 10] ++
  b!"Cache-control: no-cache,no-store" ++ [13, 10]

/-- `bio_err_reply` (/repo/src/http.c:198-222): the page is the configured one, or made from
the `default_error_page` (whose text is not modelled). -/
def errReply (proto : Nat) (err : Status) (page : Bytes) : Bytes :=
  httpReply proto (statusInfo err).1 (statusInfo err).2 errHeaders b!"text/html" page

/-- Name of the file opened by `acme_response` (/repo/src/http.c:977-994), relative to
the configured directory: `expand_url ("$1", phttp, 1)`. -/
def acmeFile (env : ExpEnv) : StrRes := expandUrl env [] b!"$1" true

end Pound
