import Verif.Model.Expand
import Verif.Model.Time

/-!
Log formats: /repo/src/log.c:22-141, 300-1056, and their use in the configuration, /repo/src/config.c:2834-2973.

A format is a byte string without NUL.  Offsets of diagnostics are not modelled.  stringbuf is a sequence of bytes (Model/StringBuf.lean).
-/

namespace Pound

/-- http_log_printer_fn: the printers of /repo/src/log.c:104-780 -/
inductive Prt where
  | print | forwardedIp | localIp | responseSize | responseSizeClf | processMs | processUs | processS | processF
  | remoteIp | protocol | header | headerClf | method | tid | query | request | status
  | timeDfl | timeFmt | timeS | timeMsec | timeMsecFrac | timeUsec | timeUsecFrac
  | userName | url | listenerName | backend | service | listener | backendLocus | serviceLocus | listenerLocus
deriving DecidableEq, Repr

/-- struct http_log_instr, /repo/src/log.c:28-34.  `fromEnd`: `data` is the offset of end_req, not start_req (used by the time printers only). -/
structure LInstr where
  prt : Prt
  fromEnd : Bool
  arg : Option Bytes
deriving DecidableEq, Repr

/-- add_instr, /repo/src/log.c:69-88: an empty argument is stored as NULL. -/
def mkInstr (prt : Prt) (fromEnd : Bool) (arg : Option Bytes) : LInstr := ⟨prt, fromEnd, if arg = some [] then none else arg⟩

/-- SPEC_NO_ARG, SPEC_REQ_ARG, SPEC_OPT_ARG, /repo/src/log.c:783-788 -/
inductive ArgReq where
  | no | req | opt
deriving DecidableEq, Repr

/-- What is done with a specifier: instruction with this printer, or one of the parsers p_time, p_process_time, p_objname, p_objloc -/
inductive LAct where
  | prt (p : Prt)
  | time | processTime | objName | objLoc
deriving DecidableEq, Repr

/-- http_log_spec, /repo/src/log.c:798-858 -/
def logSpec : List (UInt8 × ArgReq × LAct) :=
  [(ch%'%', .no, .prt .print),
   (ch%'a', .no, .prt .forwardedIp),
   (ch%'A', .no, .prt .localIp),
   (ch%'B', .no, .prt .responseSize),
   (ch%'b', .no, .prt .responseSizeClf),
   (ch%'D', .no, .prt .processMs),
   (ch%'h', .no, .prt .remoteIp),
   (ch%'H', .no, .prt .protocol),
   (ch%'i', .req, .prt .header),
   (ch%'I', .req, .prt .headerClf),
   (ch%'L', .req, .objLoc),
   (ch%'N', .req, .objName),
   (ch%'m', .no, .prt .method),
   (ch%'P', .no, .prt .tid),
   (ch%'q', .no, .prt .query),
   (ch%'r', .no, .prt .request),
   (ch%'s', .opt, .prt .status),
   (ch%'t', .opt, .time),
   (ch%'T', .opt, .processTime),
   (ch%'u', .no, .prt .userName),
   (ch%'U', .no, .prt .url),
   (ch%'v', .no, .prt .listenerName)]

/-- find_spec, /repo/src/log.c:860-869 -/
def findSpec (c : UInt8) : Option (ArgReq × LAct) := (logSpec.find? (·.1 == c)).map (·.2)

/-- argprt_find, /repo/src/log.c:476-483 -/
def argprtFind (tab : List (Bytes × Prt)) (arg : Bytes) : Option Prt := (tab.find? (·.1 == arg)).map (·.2)

/-- timeprt, /repo/src/log.c:485-492 -/
def timeprt : List (Bytes × Prt) :=
  [(b!"s", .timeS), (b!"msec", .timeMsec), (b!"msec_frac", .timeMsecFrac), (b!"usec", .timeUsec), (b!"usec_frac", .timeUsecFrac)]

/-- proctimeprt, /repo/src/log.c:575-581 -/
def proctimeprt : List (Bytes × Prt) := [(b!"s", .processS), (b!"f", .processF), (b!"ms", .processMs), (b!"us", .processUs)]

/-- nameprt, /repo/src/log.c:689-694 -/
def nameprt : List (Bytes × Prt) := [(b!"backend", .backend), (b!"service", .service), (b!"listener", .listener)]

/-- locprt, /repo/src/log.c:731-736 -/
def locprt : List (Bytes × Prt) := [(b!"backend", .backendLocus), (b!"service", .serviceLocus), (b!"listener", .listenerLocus)]

/-- The prefix of the argument in p_time, /repo/src/log.c:512-522: end_req instead of start_req, and the rest -/
def timePrefix (a : Bytes) : Bool × Bytes :=
  if a.take 6 = b!"begin:" then (false, a.drop 6) else if a.take 4 = b!"end:" then (true, a.drop 4) else (false, a)

/-- p_time, /repo/src/log.c:494-539 -/
def pTime : Option Bytes → LInstr
  | none => mkInstr .timeDfl false none
  | some a =>
    let r := timePrefix a
    if r.2 = [] then mkInstr .timeDfl r.1 none
    else
      match argprtFind timeprt r.2 with
      | some p => mkInstr p r.1 none
      | none => mkInstr .timeFmt r.1 (some r.2)

/-- p_process_time, /repo/src/log.c:583-597 -/
def pProcessTime : Option Bytes → Option LInstr
  | none => some (mkInstr .processS false none)
  | some a => (argprtFind proctimeprt a).map fun p => mkInstr p false none

/-- p_objname and p_objloc, /repo/src/log.c:696-708, 738-750 -/
def pObj (tab : List (Bytes × Prt)) : Option Bytes → Option LInstr
  | none => none
  | some a => (argprtFind tab a).map fun p => mkInstr p false none

def notPct (c : UInt8) : Bool := c != ch%'%'
def notRbrace (c : UInt8) : Bool := c != ch%'}'

/-- The argument of a specifier, /repo/src/log.c:949-969; `p` is what follows the percent sign.  `none`: no closing brace.  Otherwise
the argument and what follows it, beginning with the specifier's character. -/
def logArg (p : Bytes) : Option (Option Bytes × Bytes) :=
  if p.head? = some ch%'>' ∧ p[1]? = some ch%'s' then some (some b!"1", p.drop 1)
  else if p.head? = some ch%'{' then
    if (p.drop 1).dropWhile notRbrace = [] then none
    else some (some ((p.drop 1).takeWhile notRbrace), ((p.drop 1).dropWhile notRbrace).drop 1)
  else some (none, p)

/-- The instruction for a known specifier, or `none` on a fatal error, /repo/src/log.c:979-1017; the flag tells that a warning was issued. -/
def specInstr (c : UInt8) (s : ArgReq × LAct) (arg : Option Bytes) : Option LInstr × Bool :=
  let warn := s.1 = .no ∧ arg.isSome
  let arg := if s.1 = .no then none else arg
  if s.1 = .req ∧ arg = none then (none, false)
  else
    let arg := if c = ch%'%' then some b!"%" else arg
    (match s.2 with
     | .prt p => some (mkInstr p false arg)
     | .time => some (pTime arg)
     | .processTime => pProcessTime arg
     | .objName => pObj nameprt arg
     | .objLoc => pObj locprt arg, warn)

/-- add_instr for literal text, if there is any -/
def litInstr (s : Bytes) : List LInstr := if s = [] then [] else [mkInstr .print false (some s)]

/-- What http_log_format_compile returns: the program (`none`: -1), and its diagnostics in order, true for fatal ones -/
structure Compiled where
  prog : Option (List LInstr)
  diags : List Bool
deriving DecidableEq, Repr

/-- The loop of http_log_format_compile, /repo/src/log.c:939-1022.  If the format ends where a specifier's character is expected, the loop goes on behind the
terminating NUL (undefined). `fuel` bounds the number of rounds. -/
def compileLoop : Nat → Bytes → List LInstr → List Bool → Res Compiled
  | 0, _, _, _ => .ub
  | f + 1, cur, prog, diags =>
    let lit := cur.takeWhile notPct
    let prog := prog ++ litInstr lit
    match cur.dropWhile notPct with
    | [] => .ok ⟨some prog, diags⟩
    | _ :: p =>
      match logArg p with
      | none => compileLoop f (p.drop 1) (prog ++ [mkInstr .print false (some (ch%'%' :: p.take 1))]) (diags ++ [true])
      | some (arg, p') =>
        match p' with
        | [] => .ub
        | c :: rest =>
          match findSpec c with
          | none => compileLoop f rest (prog ++ [mkInstr .print false (some (cur.take (cur.length - rest.length)))]) (diags ++ [true])
          | some s =>
            match specInstr c s arg with
            | (none, _) => .ok ⟨none, diags ++ [true]⟩
            | (some i, w) => compileLoop f rest (prog ++ [i]) (if w then diags ++ [false] else diags)

/-- http_log_format_compile for a new name, /repo/src/log.c:932-1024 -/
def compileFormat (fmt : Bytes) : Res Compiled := compileLoop (fmt.length + 1) fmt [] []

/-- The decision in parse_log_format and compile_canned_formats, /repo/src/config.c:2897-2900, 2966-2970: log_format_diag stores the severity of
the last diagnostic, :2882. -/
def Compiled.accepted (r : Compiled) : Option (List LInstr) := if r.diags.getLast? = some true then none else r.prog

/-! ### Printing -/

/-- be_service_name, /repo/src/log.c:648-673, is given the kind of the backend. -/
inductive LogBe where
  | regular | redirect | acme | control | error | metrics | matrix | backendRef
deriving DecidableEq, Repr

/-- What the printers use of the request.  `remote = none`: connection on a UNIX socket. `forwarded` is the result of scan_forwarded_header, see Model/Acl.lean;
`header` looks up request headers, see Model/Expand.lean. `strftime` formats a time in seconds. -/
structure LogCtx where
  forwarded : Option Bytes
  anonymise : Bool
  remote : Option Bytes
  localIp : Bytes
  resBytes : Nat
  tls : Bool
  method : Bytes
  query : Option Bytes
  path : Option Bytes
  reqLine : Bytes
  respLine : Bytes
  respCode : Nat
  start : TS
  fin : TS
  user : Option Bytes
  lstnName : Option Bytes
  tid : Nat
  header : Bytes → Option Bytes
  backendName : Bytes
  beKind : LogBe
  svcName : Option Bytes
  beLocus : Option Bytes
  svcLocus : Option Bytes
  lstnLocus : Option Bytes
  strftime : Bytes → Int → Bytes

/-- print_str, /repo/src/log.c:90-102 -/
def printStr (s : Option Bytes) : Bytes := s.getD b!"-"

/-- The text up to and including the last character that satisfies `f`, if there is one -/
def upToLast (f : UInt8 → Bool) (s : Bytes) : Option Bytes :=
  if s.any f then some (s.reverse.dropWhile (fun c => !f c)).reverse else none

/-- anon_ip, /repo/src/log.c:111-123 -/
def anonIp (on : Bool) (buf : Bytes) : Bytes :=
  if on then
    match upToLast (· == ch%'.') buf with
    | some p => p ++ b!"0"
    | none =>
      match upToLast (· == ch%':') buf with
      | some p => p ++ b!"0"
      | none => buf
  else buf

/-- anon_addr2str, /repo/src/log.c:125-133 -/
def LogCtx.remoteIp (x : LogCtx) : Bytes :=
  match x.remote with
  | none => b!"socket"
  | some a => anonIp x.anonymise a

/-- timespec_sub, /repo/src/pound.h:296-310 -/
def TS.sub (a b : TS) : TS :=
  let d : TS := ⟨a.sec - b.sec, a.nsec - b.nsec⟩
  if d.nsec < 0 then ⟨d.sec - 1, d.nsec + 1000000000⟩ else d

/-- printf's "%ld" -/
def decInt (n : Int) : Bytes := if n < 0 then ch%'-' :: dec n.natAbs else dec n.toNat

/-- printf's "%3d" and "%0wd" for numbers that are not negative -/
def padTo (c : UInt8) (w : Nat) (s : Bytes) : Bytes := List.replicate (w - s.length) c ++ s

/-- be_service_name, /repo/src/log.c:648-673 -/
def LogCtx.serviceName (x : LogCtx) : Bytes :=
  match x.beKind with
  | .regular => x.svcName.getD b!"-"
  | .redirect => b!"(redirect)"
  | .acme => b!"(acme)"
  | .control => b!"(control)"
  | .error => b!"(error)"
  | .metrics => b!"(metrics)"
  | .matrix => b!"-"
  | .backendRef => b!"-"

/-- phttp_field_ptr, /repo/src/log.c:400-405 -/
def LogCtx.timeAt (x : LogCtx) (fromEnd : Bool) : TS := if fromEnd then x.fin else x.start

/-- The printers.  i_time_msec and i_time_usec, /repo/src/log.c:434-441, 451-458, compute with `double`, which is exact for times before the year
100000.  Division is that of C. -/
def LInstr.print (x : LogCtx) (i : LInstr) : Bytes :=
  let ts := x.timeAt i.fromEnd
  let diff := x.fin.sub x.start
  match i.prt with
  -- /repo/src/log.c:104-109
  | .print => printStr i.arg
  -- :300-315
  | .forwardedIp => match x.forwarded with | some ip => ip | none => x.remoteIp
  -- :135-141
  | .remoteIp => x.remoteIp
  -- :317-323
  | .localIp => x.localIp
  -- :325-330
  | .responseSize => dec x.resBytes
  -- :332-340
  | .responseSizeClf => if 0 < x.resBytes then dec x.resBytes else b!"-"
  -- :342-347
  | .protocol => if x.tls then b!"https" else b!"http"
  -- :349-354
  | .method => x.method
  -- :356-367
  | .query => match x.query with | some q => ch%'?' :: q | none => []
  -- :369-377
  | .status => if i.arg.isSome then x.respLine else padTo 32 3 (dec x.respCode)
  -- :407-415
  | .timeDfl => x.strftime b!"[%d/%b/%Y:%H:%M:%S %z]" ts.sec
  -- :417-424
  | .timeFmt => x.strftime (i.arg.getD []) ts.sec
  -- :426-432
  | .timeS => decInt ts.sec
  -- :434-441
  | .timeMsec => decInt (ts.sec * 1000 + ts.nsec.tdiv 1000000)
  -- :443-449
  | .timeMsecFrac => padTo 48 3 (decInt (ts.nsec.tdiv 1000000))
  -- :451-458
  | .timeUsec => decInt (ts.sec * 1000000 + ts.nsec.tdiv 1000)
  -- :460-466
  | .timeUsecFrac => padTo 48 6 (decInt (ts.nsec.tdiv 1000))
  -- :541-548
  | .processMs => decInt (diff.sec * 1000 + diff.nsec.tdiv 1000000)
  -- :550-557
  | .processUs => decInt (diff.sec * 1000000 + diff.nsec.tdiv 1000)
  -- :559-565
  | .processS => decInt diff.sec
  -- :567-573
  | .processF => decInt diff.sec ++ ch%'.' :: padTo 48 3 (decInt (diff.nsec.tdiv 1000000))
  -- :599-608
  | .userName => printStr x.user
  -- :610-617
  | .url => printStr x.path
  -- :619-624
  | .listenerName => printStr x.lstnName
  -- :626-631
  | .tid => dec x.tid
  -- :633-638
  | .request => x.reqLine
  -- :640-646
  | .backend => x.backendName
  -- :675-680
  | .service => x.serviceName
  -- :682-687
  | .listener => printStr x.lstnName
  -- :710-715
  | .backendLocus => printStr x.beLocus
  -- :717-722
  | .serviceLocus => printStr x.svcLocus
  -- :724-729
  | .listenerLocus => printStr x.lstnLocus
  -- :752-765
  | .header => ((i.arg.bind x.header).getD [])
  -- :767-780
  | .headerClf => printStr (i.arg.bind x.header)

/-- http_log, /repo/src/log.c:1026-1056: `fmts` is http_log_tab, `level` the listener's log_level; nothing is logged if the status class is in the
service's mask (STATUS_MASK, /repo/src/pound.h:834) or the format is empty. -/
def httpLog (fmts : List (List LInstr)) (level : Nat) (mask : Nat) (x : LogCtx) : Option Bytes :=
  match fmts[level]? with
  | none => none
  | some prog =>
    if (2 ^ (x.respCode / 100)) &&& mask ≠ 0 then none
    else if prog = [] then none
    else some (prog.flatMap (LInstr.print x))

/-- find_log_prog and http_log_format_compile with the table of formats, /repo/src/log.c:874-893, 918-930: at most 32 formats, no name twice. -/
structure LogTab where
  fmts : List (Bytes × List LInstr)
deriving DecidableEq, Repr

/-- http_log_format_find, /repo/src/log.c:895-899 -/
def LogTab.find (t : LogTab) (name : Bytes) : Option Nat :=
  match t.fmts.findIdx? (·.1 == name) with
  | some i => some i
  | none => none

/-- parse_log_format, /repo/src/config.c:2945-2973: the table afterwards; `none` if the configuration is refused -/
def LogTab.define (t : LogTab) (name fmt : Bytes) : Res (Option LogTab) :=
  if (t.find name).isSome then .ok none
  else if t.fmts.length = 32 then .ok none
  else
    match compileFormat fmt with
    | .ub => .ub
    | .ok r =>
      match r.accepted with
      | none => .ok none
      | some p => .ok (some ⟨t.fmts ++ [(name, p)]⟩)

/-- canned_log_format, /repo/src/config.c:2840-2853 -/
def cannedFormats : List (Bytes × Bytes) :=
  [(b!"null", b!""),
   (b!"regular", b!"%a %r - %>s"),
   (b!"extended", b!"%a %r - %>s (%{Host}i/%{service}N -> %{backend}N) %{f}T sec"),
   (b!"vhost_combined", b!"%{Host}I %a - %u %t \"%r\" %s %b \"%{Referer}i\" \"%{User-Agent}i\""),
   (b!"combined", b!"%a - %u %t \"%r\" %s %b \"%{Referer}i\" \"%{User-Agent}i\""),
   (b!"detailed", b!"%{Host}I %a - %u %t \"%r\" %s %b \"%{Referer}i\" \"%{User-Agent}i\" (%{service}N -> %{backend}N) %{f}T sec")]

/-- compile_canned_formats, /repo/src/config.c:2885-2902, on an empty table -/
def cannedTab : List (Bytes × Bytes) → LogTab → Res (Option LogTab)
  | [], t => .ok (some t)
  | (n, f) :: r, t =>
    match t.define n f with
    | .ub => .ub
    | .ok none => .ok none
    | .ok (some t') => cannedTab r t'

/-- status_table of parse_log_suppress, /repo/src/config.c:2452-2461 -/
def statusTable : List (Bytes × Nat) :=
  [(b!"all", 2 ^ 1 ||| 2 ^ 2 ||| 2 ^ 3 ||| 2 ^ 4 ||| 2 ^ 5), (b!"info", 2 ^ 1), (b!"success", 2 ^ 2), (b!"redirect", 2 ^ 3), (b!"clterr", 2 ^ 4), (b!"srverr", 2 ^ 5)]

/-- The mask for one word of LogSuppress, /repo/src/config.c:2468-2482; the table has seven entries, with the last one empty. -/
def suppressWord (w : Bytes) : Option Nat :=
  if w.length = 1 ∧ w.all isDigit then
    let n := (w.headD 0).toNat - 48
    if n = 0 ∨ 7 ≤ n then none else some (2 ^ n)
  else (statusTable.find? fun e => ciEq e.1 w).map (·.2)

/-- The loop of parse_log_suppress over the words of the statement, /repo/src/config.c:2466-2486 -/
def suppressMask : Nat → List Bytes → Option Nat
  | m, [] => some m
  | m, w :: r =>
    match suppressWord w with
    | none => none
    | some n => suppressMask (m ||| n) r

/-- The end of a request in do_http, /repo/src/http.c:4881-4935: what is in response_code when the request is logged.  `before`: response_code left by the previous
request on the connection (0 at first); `set`: the value the handler stored, if it did; `res`: what it returned, `err`: code of the reply that is
sent then. -/
def loggedCode (before : Nat) (set : Option Nat) (res : Status) : Nat :=
  let rc := set.getD before
  if rc = 0 then (statusInfo res).1 else rc

end Pound
