import Verif.Model.LstCfg
import Verif.Model.Log

/-!
The top level of a configuration: /repo/src/config.c:4149-4487, 4488-4683, 5131-5183.

Left out are the statements Include and IncludeDir (C63, C65), ACL and TrustedIP (C32), ECDHCurve and SSLEngine, and ConfigText in Resolver, which is not read by tokens.
Services are given by their names and backends; what they say about conditions is in Model/SvcCfg.lean.
-/

namespace Pound

/-! ### Parsers -/

/-- A parser for a part of the data -/
def onLens {α ω : Type} (get : ω → α) (set : ω → α → ω) (p : LParser α) : LParser ω := fun s =>
  match p ⟨get s.data, s.toks, s.errs⟩ with
  | .ok t => .ok ⟨set s.data t.data, t.toks, t.errs⟩
  | .nonl t => .nonl ⟨set s.data t.data, t.toks, t.errs⟩
  | .fin t => .fin ⟨set s.data t.data, t.toks, t.errs⟩
  | .fail => .fail

/-- One table after the other -/
def orFind {ω : Type} (f g : Bytes → Option (LParser ω)) (name : Bytes) : Option (LParser ω) :=
  match f name with
  | some p => some p
  | none => g name

/-- A statement of a table -/
def kwStmt {ω : Type} (kw : Bytes) (p : LParser ω) (name : Bytes) : Option (LParser ω) := if ciEq kw name then some p else none

/-- A table of settings (`f`) and of statements that depend on what is set (`g`); a keyword that is in neither is refused. -/
def depFind {σ ω : Type} (f : Bytes → Option (LParser σ)) (g : σ → Bytes → Option (LParser ω)) (name : Bytes) : Option (LParser (σ × ω)) :=
  match f name with
  | some p => some (onFst p)
  | none => some fun s =>
    match g s.data.1 name with
    | some p => onSnd p s
    | none => .fail

/-! ### Settings -/

/-- What statements at the top level say -/
inductive TopSet where
  | user (s : Bytes)
  | group (s : Bytes)
  | jail (s : Bytes)
  | daemon (b : Bool)
  | supervisor (b : Bool)
  | wMin (n : Nat)
  | wMax (n : Nat)
  | threads (n : Nat)
  | wIdle (n : Nat)
  | grace (n : Nat)
  | facility (f : Option Nat)
  | logName (s : Bytes)
  | logNum (s : Bytes)
  | logFormat (name fmt : Bytes)
  | logTag (s : Bytes)
  | alive (n : Nat)
  | client (n : Nat)
  | timeOut (n : Nat)
  | wsTimeOut (n : Nat)
  | connTo (n : Nat)
  | balancer (a : Algo)
  | hdrOpts (os : List HdrOpt)
  | anon
  | pidFile (s : Bytes)
  | stats (b : Bool)
  | fwdHdr (s : Bytes)
  | combine (names : List Bytes)
  | reType (k : GKind)
  | icase (b : Bool)
deriving DecidableEq, Repr

/-- POUND_DEFAULTS, /repo/src/config.c:168-182, and the global variables the statements fill in, /repo/src/pound.c:23-53, 217-219.  `none` for the texts: NULL (for the file of
the process number: the name that is compiled in; for the facility: -1, no syslog).  Of the log formats only the names are kept here (see C39, C40 for the formats). -/
structure Glob where
  user : Option Bytes
  group : Option Bytes
  jail : Option Bytes
  daemon : Bool
  supervisor : Bool
  wMin : Nat
  wMax : Nat
  wIdle : Nat
  grace : Nat
  facility : Option Nat
  logLevel : Nat
  formats : List Bytes
  logTag : Option Bytes
  alive : Nat
  client : Nat
  timeOut : Nat
  wsTimeOut : Nat
  connTo : Nat
  algo : Algo
  hdr : HdrOpts
  anon : Bool
  pidFile : Option Bytes
  stats : Bool
  fwdHdr : Option Bytes
  combine : List Bytes
  re : Dfl
deriving DecidableEq, Repr

/-- pound_defaults in parse_config_file, /repo/src/config.c:5135-5150, and the initial values of the variables, /repo/src/pound.c:23-53, 217-219, /repo/src/pound.h:174-192 -/
def globInit : Glob where
  user := none
  group := none
  jail := none
  daemon := true
  supervisor := true
  wMin := 5
  wMax := 128
  wIdle := 30
  grace := 30
  facility := some 3
  logLevel := 1
  formats := cannedFormats.map (·.1)
  logTag := none
  alive := 30
  client := 10
  timeOut := 15
  wsTimeOut := 600
  connTo := 15
  algo := .random
  hdr := ⟨true, true⟩
  anon := false
  pidFile := none
  stats := false
  fwdHdr := none
  combine := []
  re := ⟨.posix, false⟩

/-- facility_table, /repo/src/cfgparser.c:1376-1402: the numbers of syslog.h, without the shift -/
def facilityTable : List (Bytes × Nat) :=
  [(b!"auth", 4), (b!"authpriv", 10), (b!"cron", 9), (b!"daemon", 3), (b!"ftp", 11), (b!"kern", 0), (b!"lpr", 6), (b!"mail", 2), (b!"news", 7), (b!"syslog", 5), (b!"user", 1),
   (b!"uucp", 8), (b!"local0", 16), (b!"local1", 17), (b!"local2", 18), (b!"local3", 19), (b!"local4", 20), (b!"local5", 21), (b!"local6", 22), (b!"local7", 23)]

/-- cfg_assign_log_facility, /repo/src/cfgparser.c:1404-1423 -/
def facilityArg (t : Tok) : Option (Option Nat) :=
  if isUnqTok t then if t.text = b!"-" then some none else (kwToTok facilityTable true t.text).map some
  else none

/-- assign_regex_type, /repo/src/config.c:4379-4394 -/
def reTypeArg (pcre : Bool) (t : Tok) : Option GKind :=
  match enumArg (if pcre then [(b!"posix", 0), (b!"pcre", 1), (b!"perl", 1)] else [(b!"posix", 0)]) t with
  | some 0 => some .posix
  | some _ => some .pcre
  | none => none

/-- The loop in parse_combine_headers, /repo/src/config.c:4344-4376, without Include: the names, and what is left -/
def combineLoop : List Tok → Option (List Bytes × List Tok)
  | .nl :: r => combineLoop r
  | .ident w :: r => if ciEq w b!"end" then some ([], r) else none
  | .string s :: r => (combineLoop r).map fun x => (s :: x.1, x.2)
  | _ => none

/-- A statement with one argument -/
def topArg1 {α : Type} (f : Tok → Option α) (mk : α → TopSet) : List Tok → Option (TopSet × List Tok)
  | t :: r => (f t).map fun v => (mk v, r)
  | [] => none

/-- The parsers of settings in top_level_parsetab -/
inductive TopKw where
  | user | group | jail | daemon | supervisor | wMin | wMax | threads | wIdle | grace | facility | logLevel | logFormat | logTag | alive | client | timeOut | wsTimeOut | connTo | balancer
  | hdrOpt | anon | pidFile | stats | fwdHdr | combine | reType | icase
deriving DecidableEq, Repr

/-- The settings in top_level_parsetab, /repo/src/config.c:4488-4683 -/
def topTable : List (Bytes × TopKw) :=
  [(b!"User", .user), (b!"Group", .group), (b!"RootJail", .jail), (b!"Daemon", .daemon), (b!"Supervisor", .supervisor), (b!"WorkerMinCount", .wMin), (b!"WorkerMaxCount", .wMax),
   (b!"Threads", .threads), (b!"WorkerIdleTimeout", .wIdle), (b!"Grace", .grace), (b!"LogFacility", .facility), (b!"LogLevel", .logLevel), (b!"LogFormat", .logFormat), (b!"LogTag", .logTag),
   (b!"Alive", .alive), (b!"Client", .client), (b!"TimeOut", .timeOut), (b!"WSTimeOut", .wsTimeOut), (b!"ConnTO", .connTo), (b!"Balancer", .balancer), (b!"HeaderOption", .hdrOpt),
   (b!"Anonymise", .anon), (b!"Anonymize", .anon), (b!"PidFile", .pidFile), (b!"BackendStats", .stats), (b!"ForwardedHeader", .fwdHdr), (b!"CombineHeaders", .combine), (b!"RegexType", .reType),
   (b!"IgnoreCase", .icase)]

/-- The argument of LogLevel, /repo/src/config.c:2904-2943; what it stands for depends on the formats (`topApply`). -/
def logSetArg : Tok → Option TopSet
  | .string s => some (.logName s)
  | .number s => some (.logNum s)
  | _ => none

/-- The arguments of these statements: /repo/src/config.c:2904-3023, 4149-4161, 4331-4394 -/
def topArg (pcre : Bool) : TopKw → List Tok → Option (TopSet × List Tok)
  | .user => topArg1 strArg .user
  | .group => topArg1 strArg .group
  | .jail => topArg1 strArg .jail
  | .daemon => topArg1 (fun t => resArg (assignBool t)) .daemon
  | .supervisor => topArg1 (fun t => resArg (assignBool t)) .supervisor
  | .wMin => topArg1 (fun t => resArg (assignUnsigned t)) .wMin
  | .wMax => topArg1 (fun t => resArg (assignUnsigned t)) .wMax
  | .threads => topArg1 (fun t => resArg (assignUnsigned t)) .threads
  | .wIdle => topArg1 (fun t => resArg (assignUnsigned t)) .wIdle
  | .grace => topArg1 (fun t => resArg (assignUnsigned t)) .grace
  | .facility => topArg1 facilityArg .facility
  | .logLevel => topArg1 logSetArg id
  | .logFormat => fun ts =>
    match ts with
    | .string n :: .string f :: r => some (.logFormat n f, r)
    | _ => none
  | .logTag => topArg1 strArg .logTag
  | .alive => topArg1 (fun t => resArg (assignUnsigned t)) .alive
  | .client => topArg1 (fun t => resArg (assignUnsigned t)) .client
  | .timeOut => topArg1 (fun t => resArg (assignUnsigned t)) .timeOut
  | .wsTimeOut => topArg1 (fun t => resArg (assignUnsigned t)) .wsTimeOut
  | .connTo => topArg1 (fun t => resArg (assignUnsigned t)) .connTo
  | .balancer => topArg1 balancerArg .balancer
  | .hdrOpt => fun ts => (hdrOptLoop ts).map fun x => (.hdrOpts x.1, x.2)
  | .anon => fun ts => some (.anon, ts)
  | .pidFile => topArg1 strArg .pidFile
  | .stats => topArg1 (fun t => resArg (assignBool t)) .stats
  | .fwdHdr => topArg1 strArg .fwdHdr
  | .combine => fun ts =>
    match ts with
    | .nl :: r => (combineLoop r).map fun x => (.combine x.1, x.2)
    | _ => none
  | .reType => topArg1 (reTypeArg pcre) .reType
  | .icase => topArg1 (fun t => resArg (assignBool t)) .icase

/-- Whether http_log_format_compile accepts a format, /repo/src/config.c:2966-2970 -/
def formatOk (fmt : Bytes) : Bool :=
  match compileFormat fmt with
  | .ok r => r.accepted.isSome
  | .ub => false

/-- The assignments the statements make; LogLevel looks up the format among those defined so far, LogFormat defines one (`LogTab.define`). -/
def topApply : TopSet → Glob → Option Glob
  | .user s, g => some { g with user := some s }
  | .group s, g => some { g with group := some s }
  | .jail s, g => some { g with jail := some s }
  | .daemon b, g => some { g with daemon := b }
  | .supervisor b, g => some { g with supervisor := b }
  | .wMin n, g => some { g with wMin := n }
  | .wMax n, g => some { g with wMax := n }
  | .threads n, g => some { g with wMin := n, wMax := n }
  | .wIdle n, g => some { g with wIdle := n }
  | .grace n, g => some { g with grace := n }
  | .facility f, g => some { g with facility := f }
  | .logName s, g => (logLvlArg g.formats (.string s)).map fun n => { g with logLevel := n }
  | .logNum s, g => (logLvlArg g.formats (.number s)).map fun n => { g with logLevel := n }
  | .logFormat n f, g =>
    if g.formats.contains n then none
    else if g.formats.length = 32 then none
    else if formatOk f then some { g with formats := g.formats ++ [n] } else none
  | .logTag s, g => some { g with logTag := some s }
  | .alive n, g => some { g with alive := n }
  | .client n, g => some { g with client := n }
  | .timeOut n, g => some { g with timeOut := n }
  | .wsTimeOut n, g => some { g with wsTimeOut := n }
  | .connTo n, g => some { g with connTo := n }
  | .balancer a, g => some { g with algo := a }
  | .hdrOpts os, g => some { g with hdr := os.foldl HdrOpts.app g.hdr }
  | .anon, g => some { g with anon := true }
  | .pidFile s, g => some { g with pidFile := some s }
  | .stats b, g => some { g with stats := b }
  | .fwdHdr s, g => some { g with fwdHdr := some s }
  | .combine ns, g => some { g with combine := g.combine ++ ns }
  | .reType k, g => some { g with re := { g.re with reType := k } }
  | .icase b, g => some { g with re := { g.re with icase := b } }

/-- top_level_parsetab, the settings -/
def topFind (pcre : Bool) (name : Bytes) : Option (LParser Glob) := (kwFind topTable name).map fun k => setParser (topArg pcre k) (k = .hdrOpt) topApply

/-! ### The control socket -/

/-- What statements in Control say -/
inductive CtlSet where
  | sock (path : Bytes)
  | chown (b : Bool)
  | mode (n : Nat)
deriving DecidableEq, Repr

/-- The listener of a control socket: ai_addrlen is 0 as long as there is no path. -/
structure CtlSt where
  path : Option Bytes
  chown : Bool
  mode : Nat
deriving DecidableEq, Repr

/-- A control socket; its listener has the limits and the log format in force, accepts the methods of xHTTP 1 and has a service with one backend, BE_CONTROL, /repo/src/config.c:4255-4286. -/
structure Ctl where
  path : Bytes
  chown : Bool
  mode : Nat
  to : Nat
  logLevel : Nat
  verb : Nat
deriving DecidableEq, Repr

/-- The parsers in control_parsetab -/
inductive CtlKw where
  | sock | chown | mode
deriving DecidableEq, Repr

/-- control_parsetab, /repo/src/config.c:4199-4218, without End -/
def ctlTable : List (Bytes × CtlKw) := [(b!"Socket", .sock), (b!"ChangeOwner", .chown), (b!"Mode", .mode)]

/-- Their arguments, /repo/src/config.c:4163-4197; for Mode see also C46. -/
def ctlArg : CtlKw → List Tok → Option (CtlSet × List Tok)
  | .sock => fun ts => match ts with
    | t :: r => (sockArg t).map fun v => (.sock v, r)
    | [] => none
  | .chown => fun ts => match ts with
    | t :: r => (resArg (assignBool t)).map fun v => (.chown v, r)
    | [] => none
  | .mode => fun ts => match ts with
    | t :: r => (resArg (assignMode t)).map fun v => (.mode v, r)
    | [] => none

/-- Their assignments -/
def ctlApply : CtlSet → CtlSt → Option CtlSt
  | .sock p, s => some { s with path := some p }
  | .chown b, s => some { s with chown := b }
  | .mode n, s => some { s with mode := n }

/-- control_parsetab -/
def ctlFind (name : Bytes) : Option (LParser CtlSt) :=
  if ciEq b!"End" name then some endParser else (kwFind ctlTable name).map fun k => setParser (ctlArg k) false ctlApply

/-- parse_control_listener, /repo/src/config.c:4220-4288; the order among other listeners is not kept. -/
def ctlParser (g : Glob) (n : Nat) : LParser (List Ctl) := fun s =>
  match s.toks with
  | .nl :: r =>
    match cfgL ctlFind false true n ⟨⟨none, false, 0o600⟩, r, s.errs⟩ with
    | .ok s2 =>
      match s2.data.path with
      | none => .fail
      | some p => .ok ⟨s.data ++ [⟨p, s2.data.chown, s2.data.mode, g.client, g.logLevel, 1⟩], s2.toks, s2.errs⟩
    | _ => .fail
  | .string p :: r => if p.length > unixPathMax then .fail else .ok { s with data := s.data ++ [⟨p, false, 0o600, g.client, g.logLevel, 1⟩], toks := r }
  | _ => .fail

/-! ### The resolver -/

/-- What statements in Resolver say -/
inductive ResSet where
  | conf (text : Bytes)
  | debug (b : Bool)
  | chain (n : Nat)
  | retry (n : Nat)
deriving DecidableEq, Repr

/-- struct resolver_config, /repo/src/resolver.h:18-26 -/
structure ResCfg where
  conf : Option Bytes
  debug : Bool
  chain : Nat
  retry : Nat
deriving DecidableEq, Repr

/-- The parsers in resolver_parsetab -/
inductive ResKw where
  | conf | debug | chain | retry
deriving DecidableEq, Repr

/-- resolver_parsetab, /repo/src/config.c:4441-4470, without End and ConfigText -/
def resTable : List (Bytes × ResKw) := [(b!"ConfigFile", .conf), (b!"Debug", .debug), (b!"CNAMEChain", .chain), (b!"RetryInterval", .retry)]

/-- Their arguments; for ConfigFile read_resolv_conf, /repo/src/config.c:4396-4408, with a message if there was one before -/
def resCfgArg (file : Bytes → Option Bytes) : ResKw → List Tok → Option (ResSet × List Tok)
  | .conf => fun ts => match ts with
    | .string f :: r => (file f).map fun v => (.conf v, r)
    | _ => none
  | .debug => fun ts => match ts with
    | t :: r => (resArg (assignBool t)).map fun v => (.debug v, r)
    | [] => none
  | .chain => fun ts => match ts with
    | t :: r => (resArg (assignUnsigned t)).map fun v => (.chain v, r)
    | [] => none
  | .retry => fun ts => match ts with
    | t :: r => (resArg (assignUnsigned t)).map fun v => (.retry v, r)
    | [] => none

/-- Their assignments -/
def resApply : ResSet → ResCfg → Option ResCfg
  | .conf t, s => some { s with conf := some t }
  | .debug b, s => some { s with debug := b }
  | .chain n, s => some { s with chain := n }
  | .retry n, s => some { s with retry := n }

/-- resolver_parsetab -/
def resFind (file : Bytes → Option Bytes) (name : Bytes) : Option (LParser ResCfg) :=
  if ciEq b!"End" name then some endParser else (kwFind resTable name).map fun k => setParser (resCfgArg file k) false resApply

/-- parse_resolver, /repo/src/config.c:4472-4486, with support for dynamic backends -/
def resParser (file : Bytes → Option Bytes) (n : Nat) : LParser ResCfg := fun s =>
  match cfgL (resFind file) false true n s with
  | .ok s2 => .ok s2
  | _ => .fail

/-! ### The configuration -/

/-- What reading a configuration depends on -/
structure TopEnv where
  be : BeEnv
  lst : LstEnv

/-- A listener with its services -/
abbrev TopLst := Lst (List (Option Bytes × SvcBes))

/-- What the configuration defines: the named backends, services and listeners, control sockets, and how to resolve names -/
structure TopObjs where
  named : List NamedBe
  svcs : List (Option Bytes × SvcBes)
  lsts : List TopLst
  ctls : List Ctl
  res : ResCfg

/-- Nothing; RESOLVER_CONFIG_INITIALIZER, /repo/src/resolver.h:26 -/
def objsInit : TopObjs := ⟨[], [], [], [], ⟨none, false, 0, 600⟩⟩

/-- What backends take from the defaults, /repo/src/config.c:1025-1028 -/
def Glob.beDfl (g : Glob) : BeDfl := ⟨g.timeOut, g.connTo, g.wsTimeOut⟩

/-- What listeners take from the defaults, /repo/src/config.c:3268-3288 -/
def Glob.lstDfl (g : Glob) : LstDfl := ⟨g.client, g.logLevel, g.hdr, g.re⟩

/-- The environment of listeners with the formats defined so far -/
def Glob.lstEnv (g : Glob) (e : LstEnv) : LstEnv := { e with formats := g.formats }

/-- ListenHTTP and ListenHTTPS, /repo/src/config.c:4631-4638 -/
def topListen (e : TopEnv) (g : Glob) (n : Nat) (tls : Bool) : LParser (List TopLst) :=
  listenParser (g.lstEnv e.lst) g.lstDfl (svcStmtFind e.be g.beDfl g.algo n) [] (fun _ => []) tls n

/-- top_level_parsetab, the other statements, /repo/src/config.c:4604-4670: they see the defaults in force. -/
def topOther (e : TopEnv) (n : Nat) (g : Glob) : Bytes → Option (LParser TopObjs) :=
  orFind (kwStmt b!"Backend" (onLens TopObjs.named (fun o x => { o with named := x }) (namedParser e.be g.beDfl n))) <|
  orFind (kwStmt b!"Service" (onLens TopObjs.svcs (fun o x => { o with svcs := x }) (svcParser e.be g.beDfl g.algo n))) <|
  orFind (kwStmt b!"ListenHTTP" (onLens TopObjs.lsts (fun o x => { o with lsts := x }) (topListen e g n false))) <|
  orFind (kwStmt b!"ListenHTTPS" (onLens TopObjs.lsts (fun o x => { o with lsts := x }) (topListen e g n true))) <|
  orFind (kwStmt b!"Control" (onLens TopObjs.ctls (fun o x => { o with ctls := x }) (ctlParser g n))) <|
  kwStmt b!"Resolver" (onLens TopObjs.res (fun o x => { o with res := x }) (resParser e.lst.file n))

/-- parse_config_file, /repo/src/config.c:5131-5175, on all the tokens of the file: what is read, and the number of messages about tokens that belong to no statement.
service_finalize is in Model/BeCfg.lean; forbid_ssl_usage and pass_file_fixup are left out. -/
def parseTop (e : TopEnv) (n : Nat) (ts : List Tok) : Option (Glob × TopObjs × Nat) :=
  match cfgL (depFind (topFind e.lst.cfg.pcre) (topOther e n)) false false n ⟨(globInit, objsInit), ts, 0⟩ with
  | .ok ⟨(g, o), [], er⟩ => if g.wMin > g.wMax then none else some (g, o, er)
  | _ => none

end Pound
