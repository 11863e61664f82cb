import Verif.Model.CtlMain

/-!
The command line of pound: /repo/src/config.c:5185-5289, 5348-5436.  getopt is in Model/CtlMain.lean; parsing of the configuration file is a parameter.
-/

namespace Pound

/-- `feature`, /repo/src/config.c:5224-5242, and include_dir (/repo/src/cfgparser.c:415): 0, 1 and 2 are F_OFF, F_ON and F_DFL. -/
structure Features where
  dns : Nat := 1
  incl : Nat := 2
  warn : Nat := 2
  dir : Option Bytes
deriving DecidableEq, Repr

/-- How the handling of an option ends: undefined behaviour; the program exits; it goes on -/
inductive CmdRes (α : Type) where
  | ub
  | exit (code : Nat)
  | go (a : α)
deriving DecidableEq, Repr

/-- set_include_dir, /repo/src/config.c:5200-5222; `isDir` is what stat tells.  stat (NULL) is undefined. -/
def setIncludeDir (isDir : Bytes → Option Bool) (f : Features) (enabled : Bool) (val : Option Bytes) : CmdRes Features :=
  if enabled then
    match val with
    | none => .ub
    | some v =>
      if v = [] ∨ v = b!"." then .go { f with dir := none }
      else
        match isDir v with
        | none => .exit 1
        | some false => .exit 1
        | some true => .go { f with dir := some v }
  else .go { f with dir := none }

/-- The value of an enabled feature, /repo/src/config.c:5185-5190 -/
def featVal (enabled : Bool) : Nat := if enabled then 1 else 0

/-- The loop over the features, /repo/src/config.c:5272-5288, when the name is not empty; -1 makes the caller exit (:5396-5400). -/
def featureLoop (isDir : Bytes → Option Bool) (f : Features) (enabled : Bool) (name : Bytes) (val : Option Bytes) : CmdRes Features :=
  if name = b!"dns" then
    match val with
    | none => .go { f with dns := featVal enabled }
    | some _ => .exit 1
  else if name = b!"include-dir" then
    match setIncludeDir isDir f enabled val with
    | .go f => .go { f with incl := featVal enabled }
    | r => r
  else if name = b!"warn-deprecated" then
    match val with
    | none => .go { f with warn := featVal enabled }
    | some _ => .exit 1
  else .exit 1

/-- feature_set, /repo/src/config.c:5250-5289 -/
def featureSet (isDir : Bytes → Option Bool) (f : Features) (arg : Bytes) : CmdRes Features :=
  let name := arg.takeWhile (· != ch%'=')
  match arg.drop name.length with
  | _ :: val => featureLoop isDir f true name (some val)
  | [] =>
    if name.take 3 = b!"no-" then
      if name.drop 3 = [] then .exit 1 else featureLoop isDir f false (name.drop 3) none
    else if name = [] then .exit 1
    else featureLoop isDir f true name none

/-- The local variables of config_parse, /repo/src/config.c:5351-5356, print_log, and the features -/
structure PoundOptSt where
  check : Bool := false
  conf : Bytes
  pid : Option Bytes := none
  fg : Bool := false
  stderr : Bool := false
  printLog : Bool := false
  feat : Features
deriving DecidableEq, Repr

/-- "ceFf:hp:VvW:", /repo/src/config.c:5360 -/
def poundOptSpec (c : UInt8) : Option Bool :=
  if c ∈ [ch%'f', ch%'p', ch%'W'] then some true
  else if c ∈ [ch%'c', ch%'e', ch%'F', ch%'h', ch%'V', ch%'v'] then some false
  else none

/-- One option, /repo/src/config.c:5361-5405 -/
def poundOpt (isDir : Bytes → Option Bool) (s : PoundOptSt) : OptItem → CmdRes PoundOptSt
  | .bad => .exit 1
  | .opt c none =>
    if c = ch%'c' then .go { s with check := true }
    else if c = ch%'e' then .go { s with stderr := true, fg := true }
    else if c = ch%'F' then .go { s with fg := true }
    else if c = ch%'h' then .exit 0
    else if c = ch%'V' then .exit 0
    else if c = ch%'v' then .go { s with printLog := true }
    else .exit 1
  | .opt c (some a) =>
    if c = ch%'f' then .go { s with conf := a }
    else if c = ch%'p' then .go { s with pid := some a }
    else if c = ch%'W' then
      match featureSet isDir s.feat a with
      | .ub => .ub
      | .exit n => .exit n
      | .go f => .go { s with feat := f }
    else .exit 1

/-- All options -/
def poundOpts (isDir : Bytes → Option Bool) (s : PoundOptSt) : List OptItem → CmdRes PoundOptSt
  | [] => .go s
  | o :: r =>
    match poundOpt isDir s o with
    | .ub => .ub
    | .exit n => .exit n
    | .go s' => poundOpts isDir s' r

/-- What matters here of a configuration that was accepted: the statements LogFacility (`none` for `-`; /repo/src/config.c:5135, 5173-5174), Daemon,
PidFile, and whether there are listeners -/
structure PoundConf where
  facility : Option Nat := some 3
  daemon : Bool := true
  pidFile : Option Bytes := none
  listeners : Bool := true
deriving DecidableEq, Repr

/-- What pound finds: what stat tells of directories, POSIXLY_CORRECT, and the configuration files (`none`: refused) as parsed with the features;
POUND_CONF, POUND_PID and SYSCONFDIR given when it was compiled -/
structure PoundEnv where
  isDir : Bytes → Option Bool
  posix : Bool := false
  parse : Bytes → Features → Option PoundConf
  confName : Bytes := b!"/etc/pound.cfg"
  pidName : Bytes := b!"/run/pound.pid"
  sysconf : Bytes := b!"/etc"

/-- What pound goes on with: whether it detaches, the file for its PID, the syslog facility (`none`: messages go to stdout and stderr), whether messages
are printed during startup, too, the features and the configuration -/
structure PoundRun where
  daemon : Bool
  pid : Bytes
  facility : Option Nat
  printLog : Bool
  feat : Features
  conf : PoundConf
deriving DecidableEq, Repr

/-- config_parse, /repo/src/config.c:5348-5436; LOG_DAEMON is 3 (shifted by 3 bits). -/
def configParse (E : PoundEnv) (argv : List Bytes) : CmdRes PoundRun :=
  match poundOpts E.isDir { conf := E.confName, feat := { dir := some E.sysconf } } (getoptArgs poundOptSpec E.posix argv).1 with
  | .ub => .ub
  | .exit n => .exit n
  | .go s =>
    if (getoptArgs poundOptSpec E.posix argv).2 ≠ [] then .exit 1
    else
      match E.parse s.conf s.feat with
      | none => .exit 1
      | some c =>
        if s.check then .exit 0
        else if !c.listeners then .exit 1
        else
          let fac := if s.stderr then none else c.facility
          let daemon := if s.fg then false else c.daemon
          .go ⟨daemon, s.pid.getD (c.pidFile.getD E.pidName), if daemon ∧ fac = none then some 3 else fac, s.printLog, s.feat, c⟩

end Pound
