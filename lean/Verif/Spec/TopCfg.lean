import Verif.Spec.LstCfg
import Verif.Model.TopCfg

/-!
What a configuration says at the top level: /repo/doc/pound.8:366-824, and the sections on the control socket and the resolver.
-/

namespace Pound.Spec

/-- The facilities of syslog and their numbers -/
def facilities : List (Bytes × Nat) :=
  [(b!"kern", 0), (b!"user", 1), (b!"mail", 2), (b!"daemon", 3), (b!"auth", 4), (b!"syslog", 5), (b!"lpr", 6), (b!"news", 7), (b!"uucp", 8), (b!"cron", 9), (b!"authpriv", 10), (b!"ftp", 11),
   (b!"local0", 16), (b!"local1", 17), (b!"local2", 18), (b!"local3", 19), (b!"local4", 20), (b!"local5", 21), (b!"local6", 22), (b!"local7", 23)]

/-- The names in CombineHeaders up to its End -/
inductive CombineLines : List Tok → List Bytes → Prop
  | stop {w : Bytes} : ciEq w b!"end" = true → CombineLines [.ident w] []
  | blank {t : List Tok} {l : List Bytes} : CombineLines t l → CombineLines (.nl :: t) l
  | name {s : Bytes} {t : List Tok} {l : List Bytes} : CombineLines t l → CombineLines (.string s :: t) (s :: l)

/-- Statements with a text -/
def topTexts : List (Bytes × (Bytes → TopSet)) :=
  [(b!"User", .user), (b!"Group", .group), (b!"RootJail", .jail), (b!"LogTag", .logTag), (b!"PidFile", .pidFile), (b!"ForwardedHeader", .fwdHdr)]

/-- Statements with a boolean -/
def topBools : List (Bytes × (Bool → TopSet)) := [(b!"Daemon", .daemon), (b!"Supervisor", .supervisor), (b!"BackendStats", .stats), (b!"IgnoreCase", .icase)]

/-- Statements with a number -/
def topNumbers : List (Bytes × (Nat → TopSet)) :=
  [(b!"WorkerMinCount", .wMin), (b!"WorkerMaxCount", .wMax), (b!"Threads", .threads), (b!"WorkerIdleTimeout", .wIdle), (b!"Grace", .grace), (b!"Alive", .alive), (b!"Client", .client),
   (b!"TimeOut", .timeOut), (b!"WSTimeOut", .wsTimeOut), (b!"ConnTO", .connTo)]

/-- Settings at the top level: the keyword, the arguments and what they say.  For the arguments that are numbers and booleans see C46 and C64. -/
inductive TopArgs (pcre : Bool) : Bytes → List Tok → TopSet → Prop
  | text {w s : Bytes} {f : Bytes → TopSet} : (w, f) ∈ topTexts → TopArgs pcre w [.string s] (f s)
  | bool {w : Bytes} {u : Tok} {v : Bool} {f : Bool → TopSet} : (w, f) ∈ topBools → assignBool u = .ok (some v) → TopArgs pcre w [u] (f v)
  | number {w : Bytes} {u : Tok} {v : Nat} {f : Nat → TopSet} : (w, f) ∈ topNumbers → assignUnsigned u = .ok (some v) → TopArgs pcre w [u] (f v)
  | noSyslog {u : Tok} : u = .ident b!"-" ∨ u = .number b!"-" ∨ u = .literal b!"-" → TopArgs pcre b!"LogFacility" [u] (.facility none)
  | facility {u : Tok} {s w : Bytes} {k : Nat} : u = .ident s ∨ u = .number s ∨ u = .literal s → (w, k) ∈ facilities → ciEq w s = true → TopArgs pcre b!"LogFacility" [u] (.facility (some k))
  | logName {s : Bytes} : TopArgs pcre b!"LogLevel" [.string s] (.logName s)
  | logNum {s : Bytes} : TopArgs pcre b!"LogLevel" [.number s] (.logNum s)
  | logFormat {n f : Bytes} : TopArgs pcre b!"LogFormat" [.string n, .string f] (.logFormat n f)
  | balancer {u : Tok} {s : Bytes} {a : Algo} : u = .ident s ∨ u = .number s ∨ u = .literal s → (ciEq s b!"random" = true ∧ a = .random) ∨ (ciEq s b!"iwrr" = true ∧ a = .iwrr) →
      TopArgs pcre b!"Balancer" [u] (.balancer a)
  | hdrOpts {t : List Tok} {os : List HdrOpt} : HdrWords t os → TopArgs pcre b!"HeaderOption" t (.hdrOpts os)
  | anon {w : Bytes} : w = b!"Anonymise" ∨ w = b!"Anonymize" → TopArgs pcre w [] .anon
  | combine {t : List Tok} {l : List Bytes} : CombineLines t l → TopArgs pcre b!"CombineHeaders" (.nl :: t) (.combine l)
  | posix : TopArgs pcre b!"RegexType" [.ident b!"posix"] (.reType .posix)
  | perl {s : Bytes} : pcre = true → s = b!"pcre" ∨ s = b!"perl" → TopArgs pcre b!"RegexType" [.ident s] (.reType .pcre)

def topUser : TopSet → Option Bytes
  | .user s => some s
  | _ => none

def topGroup : TopSet → Option Bytes
  | .group s => some s
  | _ => none

def topJail : TopSet → Option Bytes
  | .jail s => some s
  | _ => none

def topDaemon : TopSet → Option Bool
  | .daemon s => some s
  | _ => none

def topSupervisor : TopSet → Option Bool
  | .supervisor s => some s
  | _ => none

def topWIdle : TopSet → Option Nat
  | .wIdle s => some s
  | _ => none

def topGrace : TopSet → Option Nat
  | .grace s => some s
  | _ => none

def topFacility : TopSet → Option (Option Nat)
  | .facility s => some s
  | _ => none

def topLogTag : TopSet → Option Bytes
  | .logTag s => some s
  | _ => none

def topAlive : TopSet → Option Nat
  | .alive s => some s
  | _ => none

def topClient : TopSet → Option Nat
  | .client s => some s
  | _ => none

def topTimeOut : TopSet → Option Nat
  | .timeOut s => some s
  | _ => none

def topWsTimeOut : TopSet → Option Nat
  | .wsTimeOut s => some s
  | _ => none

def topConnTo : TopSet → Option Nat
  | .connTo s => some s
  | _ => none

def topBalancer : TopSet → Option Algo
  | .balancer s => some s
  | _ => none

def topAnon : TopSet → Option Bool
  | .anon => some true
  | _ => none

def topPidFile : TopSet → Option Bytes
  | .pidFile s => some s
  | _ => none

def topStats : TopSet → Option Bool
  | .stats s => some s
  | _ => none

def topFwdHdr : TopSet → Option Bytes
  | .fwdHdr s => some s
  | _ => none

def topReType : TopSet → Option GKind
  | .reType s => some s
  | _ => none

def topIcase : TopSet → Option Bool
  | .icase s => some s
  | _ => none

def topFormat : TopSet → Option Bytes
  | .logFormat s _ => some s
  | _ => none

/-- Threads stands for both numbers of workers. -/
def topWMin : TopSet → Option Nat
  | .wMin n => some n
  | .threads n => some n
  | _ => none

def topWMax : TopSet → Option Nat
  | .wMax n => some n
  | .threads n => some n
  | _ => none

def topHdr : TopSet → List HdrOpt
  | .hdrOpts os => os
  | _ => []

def topCombine : TopSet → List Bytes
  | .combine ns => ns
  | _ => []

/-- The log formats that exist without being defined -/
def builtinFormats : List Bytes := [b!"null", b!"regular", b!"extended", b!"vhost_combined", b!"combined", b!"detailed"]

/-- The log formats after these settings -/
def formatsOf (l : List TopSet) : List Bytes := builtinFormats ++ l.filterMap topFormat

/-- Which of these formats a setting selects: by its name or its number -/
def levelIn (fs : List Bytes) : TopSet → Option Nat
  | .logName s => fs.findIdx? (· == s)
  | .logNum s => logLevelNum fs.length s
  | _ => none

/-- Settings in an order that is accepted: LogLevel comes after the definition of its format; formats have different names, there are at most 32, and they are well-formed. -/
structure GlobOrder (l : List TopSet) : Prop where
  level : ∀ pre x post, l = pre ++ x :: post → (∃ s, x = .logName s) ∨ (∃ s, x = .logNum s) → (levelIn (formatsOf pre) x).isSome = true
  format : ∀ pre n f post, l = pre ++ .logFormat n f :: post → n ∉ formatsOf pre ∧ (formatsOf pre).length < 32 ∧ ∃ r p, compileFormat f = .ok r ∧ r.accepted = some p

/-- What holds after these settings: the last one of each kind counts. -/
structure GlobMeans (l : List TopSet) (g : Glob) : Prop where
  user : g.user = (l.filterMap topUser).getLast?
  group : g.group = (l.filterMap topGroup).getLast?
  jail : g.jail = (l.filterMap topJail).getLast?
  daemon : g.daemon = lastOr true (l.filterMap topDaemon)
  supervisor : g.supervisor = lastOr true (l.filterMap topSupervisor)
  wMin : g.wMin = lastOr 5 (l.filterMap topWMin)
  wMax : g.wMax = lastOr 128 (l.filterMap topWMax)
  wIdle : g.wIdle = lastOr 30 (l.filterMap topWIdle)
  grace : g.grace = lastOr 30 (l.filterMap topGrace)
  facility : g.facility = lastOr (some 3) (l.filterMap topFacility)
  logLevel : g.logLevel = lastOr 1 (l.filterMap (levelIn (formatsOf l)))
  formats : g.formats = formatsOf l
  logTag : g.logTag = (l.filterMap topLogTag).getLast?
  alive : g.alive = lastOr 30 (l.filterMap topAlive)
  client : g.client = lastOr 10 (l.filterMap topClient)
  timeOut : g.timeOut = lastOr 15 (l.filterMap topTimeOut)
  wsTimeOut : g.wsTimeOut = lastOr 600 (l.filterMap topWsTimeOut)
  connTo : g.connTo = lastOr 15 (l.filterMap topConnTo)
  algo : g.algo = lastOr .random (l.filterMap topBalancer)
  fwd : g.hdr.fwd = lastOr true ((l.flatMap topHdr).filterMap fwdSays)
  ssl : g.hdr.ssl = lastOr true ((l.flatMap topHdr).filterMap sslSays)
  anon : g.anon = lastOr false (l.filterMap topAnon)
  pidFile : g.pidFile = (l.filterMap topPidFile).getLast?
  stats : g.stats = lastOr false (l.filterMap topStats)
  fwdHdr : g.fwdHdr = (l.filterMap topFwdHdr).getLast?
  combine : g.combine = l.flatMap topCombine
  reType : g.re.reType = lastOr .posix (l.filterMap topReType)
  icase : g.re.icase = lastOr false (l.filterMap topIcase)

/-! ### The control socket and the resolver -/

/-- Settings of the control socket -/
inductive CtlArgs : Bytes → List Tok → CtlSet → Prop
  | sock {p : Bytes} : p.length ≤ 108 → CtlArgs b!"Socket" [.string p] (.sock p)
  | chown {u : Tok} {v : Bool} : assignBool u = .ok (some v) → CtlArgs b!"ChangeOwner" [u] (.chown v)
  | mode {u : Tok} {v : Nat} : assignMode u = .ok (some v) → CtlArgs b!"Mode" [u] (.mode v)

def ctlSock : CtlSet → Option Bytes
  | .sock p => some p
  | _ => none

def ctlChown : CtlSet → Option Bool
  | .chown b => some b
  | _ => none

def ctlMode : CtlSet → Option Nat
  | .mode n => some n
  | _ => none

/-- Only the settings of a section -/
def Settings {δ : Type} (args : Bytes → List Tok → δ → Prop) (t : List Tok) (l : List δ) : Prop := SetBody args (fun _ (_ _ : Unit) => False) t l () ()

/-- Control, with the newline at its end: a path, or a section with one.  It takes the time limit and the log format that are in force. -/
inductive CtlStmt (g : Glob) : List Tok → Ctl → Prop
  | path {n p : Bytes} : ciEq b!"Control" n = true → p.length ≤ 108 → CtlStmt g [.ident n, .string p, .nl] ⟨p, false, 0o600, g.client, g.logLevel, 1⟩
  | sect {n p : Bytes} {t : List Tok} {l : List CtlSet} : ciEq b!"Control" n = true → Settings CtlArgs t l → (l.filterMap ctlSock).getLast? = some p →
      CtlStmt g (.ident n :: .nl :: (t ++ [.nl])) ⟨p, lastOr false (l.filterMap ctlChown), lastOr 0o600 (l.filterMap ctlMode), g.client, g.logLevel, 1⟩

/-- Settings of the resolver -/
inductive ResArgs (file : Bytes → Option Bytes) : Bytes → List Tok → ResSet → Prop
  | conf {f text : Bytes} : file f = some text → ResArgs file b!"ConfigFile" [.string f] (.conf text)
  | debug {u : Tok} {v : Bool} : assignBool u = .ok (some v) → ResArgs file b!"Debug" [u] (.debug v)
  | chain {u : Tok} {v : Nat} : assignUnsigned u = .ok (some v) → ResArgs file b!"CNAMEChain" [u] (.chain v)
  | retry {u : Tok} {v : Nat} : assignUnsigned u = .ok (some v) → ResArgs file b!"RetryInterval" [u] (.retry v)

def resConf : ResSet → Option Bytes
  | .conf p => some p
  | _ => none

def resDebug : ResSet → Option Bool
  | .debug b => some b
  | _ => none

def resChain : ResSet → Option Nat
  | .chain n => some n
  | _ => none

def resRetry : ResSet → Option Nat
  | .retry n => some n
  | _ => none

/-- Resolver, with the newline at its end; what it does not set stays as it was. -/
inductive ResStmt (file : Bytes → Option Bytes) (r : ResCfg) : List Tok → ResCfg → Prop
  | sect {n : Bytes} {t : List Tok} {l : List ResSet} : ciEq b!"Resolver" n = true → Settings (ResArgs file) t l →
      ResStmt file r (.ident n :: (t ++ [.nl])) ⟨lastOr r.conf ((l.filterMap resConf).map some), lastOr r.debug (l.filterMap resDebug), lastOr r.chain (l.filterMap resChain),
        lastOr r.retry (l.filterMap resRetry)⟩

/-! ### The configuration -/

/-- A statement that defines something, with the newline at its end, and what there is afterwards.  `g` are the settings in force: backends, services and listeners take their
defaults from them. -/
inductive TopStmt (e : TopEnv) (g : Glob) : List Tok → TopObjs → TopObjs → Prop
  | backend {n name : Bytes} {t : List Tok} {b : BeSt} {o : TopObjs} : ciEq b!"Backend" n = true → BeSection e.be ⟨g.timeOut, g.connTo, g.wsTimeOut⟩ t b → (∀ x ∈ o.named, x.name ≠ name) →
      TopStmt e g (.ident n :: .string name :: (t ++ [.nl])) o { o with named := ⟨name, b.prio, b.disabled, b.m⟩ :: o.named }
  | service {t : List Tok} {o : TopObjs} {l : List (Option Bytes × SvcBes)} : SvcStmt e.be ⟨g.timeOut, g.connTo, g.wsTimeOut⟩ g.algo t o.svcs l → TopStmt e g t o { o with svcs := l }
  | listener {n : Bytes} {t : List Tok} {o : TopObjs} {x : TopLst} : ciEq (if x.tls then b!"ListenHTTPS" else b!"ListenHTTP") n = true →
      Listens { e.lst with formats := g.formats } ⟨g.client, g.logLevel, g.hdr, g.re⟩ (SvcStmt e.be ⟨g.timeOut, g.connTo, g.wsTimeOut⟩ g.algo) [] (fun _ => []) (o.lsts.filterMap (·.name)) t x →
      TopStmt e g (.ident n :: (t ++ [.nl])) o { o with lsts := o.lsts ++ [x] }
  | control {t : List Tok} {o : TopObjs} {c : Ctl} : CtlStmt g t c → TopStmt e g t o { o with ctls := o.ctls ++ [c] }
  | resolver {t : List Tok} {o : TopObjs} {r : ResCfg} : ResStmt e.lst.file o.res t r → TopStmt e g t o { o with res := r }

/-- The text of a configuration from some place on: `l` are the settings before, `o` is what has been defined before; `l'` and `o'` are all of them. -/
inductive TopBody (e : TopEnv) : List Tok → List TopSet → TopObjs → List TopSet → TopObjs → Prop
  | stop {l : List TopSet} {o : TopObjs} : TopBody e [] l o l o
  | blank {t : List Tok} {l l' : List TopSet} {o o' : TopObjs} : TopBody e t l o l' o' → TopBody e (.nl :: t) l o l' o'
  | set {w n : Bytes} {a t : List Tok} {x : TopSet} {l l' : List TopSet} {o o' : TopObjs} : TopArgs e.lst.cfg.pcre w a x → ciEq w n = true → TopBody e t (l ++ [x]) o l' o' →
      TopBody e (.ident n :: (a ++ .nl :: t)) l o l' o'
  | stmt {a t : List Tok} {g : Glob} {l l' : List TopSet} {o o1 o' : TopObjs} : GlobMeans l g → TopStmt e g a o o1 → TopBody e t l o1 l' o' → TopBody e (a ++ t) l o l' o'

/-- A configuration: its text, the settings and what it defines -/
structure Configures (e : TopEnv) (t : List Tok) (g : Glob) (o : TopObjs) : Prop where
  body : ∃ l, TopBody e t [] ⟨[], [], [], [], ⟨none, false, 0, 600⟩⟩ l o ∧ GlobOrder l ∧ GlobMeans l g
  workers : g.wMin ≤ g.wMax

end Pound.Spec
