import Verif.Model.WorkDir

/-!
# Starting and leaving

What main does once the configuration was read, up to the moment when requests are served, and the files that are removed at the end: /repo/src/pound.c:540-669, 879-926, 961-1104, 1171-1245.

The process is described by its credentials, file mode mask, directories, identifier and descriptors; which system calls succeed is a parameter, except for those that set credentials, whose outcome follows
from the credentials at that moment.
-/

namespace Pound

/-- Real, effective and saved user and group identifiers, and supplementary groups -/
structure SuCred where
  ruid : Nat
  euid : Nat
  suid : Nat
  rgid : Nat
  egid : Nat
  sgid : Nat
  groups : List Nat
deriving DecidableEq, Repr

/-- setuid(2), seteuid(2), setgid(2), setegid(2) -/
def suSetuid (u : Nat) (c : SuCred) : Option SuCred :=
  if c.euid = 0 then some { c with ruid := u, euid := u, suid := u } else if u = c.ruid ∨ u = c.suid then some { c with euid := u } else none

def suSeteuid (u : Nat) (c : SuCred) : Option SuCred :=
  if c.euid = 0 ∨ u = c.ruid ∨ u = c.euid ∨ u = c.suid then some { c with euid := u } else none

def suSetgid (g : Nat) (c : SuCred) : Option SuCred :=
  if c.euid = 0 then some { c with rgid := g, egid := g, sgid := g } else if g = c.rgid ∨ g = c.sgid then some { c with egid := g } else none

def suSetegid (g : Nat) (c : SuCred) : Option SuCred :=
  if c.euid = 0 ∨ g = c.rgid ∨ g = c.egid ∨ g = c.sgid then some { c with egid := g } else none

/-- What a descriptor refers to: something that was open at the start; the socket of a listener (listening or not); the connection over which one was obtained; /dev/null; a directory -/
inductive SuFd where
  | other (n : Nat)
  | sock (i : Nat) (listening : Bool)
  | conn (i : Nat)
  | null
  | dir
deriving DecidableEq, Repr

/-- The lowest descriptor that is free is used. -/
def suAlloc (x : SuFd) : List (Option SuFd) → Nat × List (Option SuFd)
  | [] => (0, [some x])
  | none :: l => (0, some x :: l)
  | some y :: l => ((suAlloc x l).1 + 1, some y :: (suAlloc x l).2)

/-- File system effects: a file is removed; a socket is bound by a user, with a file of some mode if it is a UNIX socket; the owner of a file is changed; the file for the process identifier is written -/
inductive SuEv where
  | unlink (path : Bytes)
  | bind (i euid : Nat) (file : Option (Bytes × Nat))
  | chown (path : Bytes) (user group : Option Nat)
  | write (path : Bytes) (pid mode : Nat)
deriving DecidableEq, Repr

/-- An entry of cleanup_head: unlink_file or unlink_file_location, /repo/src/pound.c:540-566 -/
inductive SuExit where
  | name (n : Bytes)
  | loc (dir base : Bytes)
deriving DecidableEq, Repr

structure SuProc where
  cred : SuCred
  umask : Nat
  cwd : Bytes
  root : Bytes
  pid : Nat
  fds : List (Option SuFd)
  /-- lst->sock of each listener -/
  socks : List Nat
  exits : List SuExit
  ev : List SuEv
deriving DecidableEq, Repr

/-- A listener; `family`: AF_UNIX 1, AF_INET 2, AF_INET6 10 -/
structure SuLst where
  fromSock : Bool
  family : Nat
  path : Bytes
  mode : Nat
  chown : Bool

/-- The configuration; `control`: the control socket, and whether RootJail comes before it -/
structure SuCfg where
  listeners : List SuLst
  user : Option Bytes
  group : Option Bytes
  daemon : Bool
  jail : Option Bytes
  pidfile : Option Bytes
  control : Option (Bytes × Bool)

/-- What the system answers -/
structure SuEnv where
  getpw : Bytes → Option Nat
  getgr : Bytes → Option Nat
  socket : Nat → Bool
  bind : Nat → Nat → Bool
  listen : Nat → Bool
  recv : Nat → Bool
  fork : Option Nat
  setsid : Bool
  chdir : Bool
  null : Bool
  create : Bytes → Bool
  openDir : Bytes → Bool
  chroot : Bool
  chdirJail : Bool
  setuid : Bool

/-- unlink_at_exit, /repo/src/pound.c:567-617; `jail`: root_jail is set. -/
def suAtExit (e : SuEnv) (jail : Bool) (name : Bytes) (p : SuProc) : SuProc :=
  if jail then
    if ch%'/' ∈ name then
      if (wdSplit name).1 ≠ [] ∧ e.openDir (wdAbs p.cwd p.root (wdSplit name).1) then
        { p with fds := (suAlloc .dir p.fds).2, exits := .loc (wdAbs p.cwd p.root (wdSplit name).1) (wdSplit name).2 :: p.exits }
      else p
    else if e.openDir p.cwd then { p with fds := (suAlloc .dir p.fds).2, exits := .loc p.cwd name :: p.exits } else p
  else { p with exits := .name name :: p.exits }

/-- listener_socket_from, /repo/src/pound.c:993-1033 -/
def suFrom (e : SuEnv) (i : Nat) (p : SuProc) : Option SuProc :=
  if e.socket i && e.recv i then
    let a := suAlloc (.conn i) p.fds
    let b := suAlloc (.sock i true) a.2
    some { p with fds := b.2, socks := p.socks ++ [b.1] }
  else none

/-- The mask set for a UNIX socket, /repo/src/pound.c:1057, and the mode of a file made with a mask -/
def suUmask (mode : Nat) : Nat := 511 &&& (511 ^^^ (mode &&& 511))
def suMode (mode mask : Nat) : Nat := mode &&& (511 ^^^ (mask &&& 511))

/-- listener_init, /repo/src/pound.c:1035-1104; `user`, `group`: user_id and group_id (`none`: -1) -/
def suInit (e : SuEnv) (user group : Option Nat) (i : Nat) (l : SuLst) (p : SuProc) : Option SuProc :=
  if l.family = 2 ∨ l.family = 10 then
    if e.socket i && e.bind i p.cred.euid && e.listen i then
      let a := suAlloc (.sock i true) p.fds
      some { p with fds := a.2, socks := p.socks ++ [a.1], ev := p.ev ++ [.bind i p.cred.euid none] }
    else none
  else if l.family = 1 then
    let f := wdAbs p.cwd p.root l.path
    let old := p.umask
    let p := { p with umask := suUmask l.mode, ev := p.ev ++ [SuEv.unlink f] }
    if e.socket i && e.bind i p.cred.euid && e.listen i then
      let a := suAlloc (.sock i true) p.fds
      let p := { p with fds := a.2, socks := p.socks ++ [a.1], ev := p.ev ++ [SuEv.bind i p.cred.euid (some (f, suMode 511 p.umask))] }
      some { p with umask := old, ev := p.ev ++ if l.chown then [SuEv.chown f user group] else [] }
    else none
  else none

/-- Listeners are opened, /repo/src/pound.c:1193-1202. -/
def suListeners (e : SuEnv) (user group : Option Nat) : List SuLst → Nat → SuProc → Option SuProc
  | [], _, p => some p
  | l :: t, i, p => (if l.fromSock then suFrom e i p else suInit e user group i l p).bind (suListeners e user group t (i + 1))

/-- detach, /repo/src/pound.c:879-926 -/
def suDetach (e : SuEnv) (p : SuProc) : Option SuProc :=
  match e.fork with
  | none => none
  | some pid =>
    if e.setsid && e.chdir && e.null then
      let f := ((p.fds.set 0 none).set 1 none).set 2 none
      let f := (suAlloc .null (suAlloc .null f).2).2
      match f[1]? with
      | some (some x) => some { p with pid := pid, cwd := p.root, fds := (suAlloc x f).2 }
      | _ => none
    else none

/-- pidfile_create, /repo/src/pound.c:619-634; the file is made with mode 0666. -/
def suPidfile (e : SuEnv) (jail : Bool) (name : Option Bytes) (p : SuProc) : SuProc :=
  match name with
  | none => p
  | some n =>
    if e.create (wdAbs p.cwd p.root n) then suAtExit e jail n { p with ev := p.ev ++ [.write (wdAbs p.cwd p.root n) p.pid (suMode 438 p.umask)] } else p

/-- The root directory is changed, /repo/src/pound.c:1210-1229. -/
def suJail (e : SuEnv) (jail : Option Bytes) (p : SuProc) : Option SuProc :=
  match jail with
  | none => some p
  | some j => if e.chroot && e.chdirJail then some { p with root := wdAbs p.cwd p.root j, cwd := wdAbs p.cwd p.root j } else none

/-- The group is set, /repo/src/pound.c:1231-1233. -/
def suSetGroup (group : Option Nat) (c : SuCred) : Option SuCred :=
  match group with
  | none => some c
  | some g => (suSetgid g c).bind (suSetegid g)

/-- The user is set, /repo/src/pound.c:1235-1237. -/
def suSetUser (e : SuEnv) (user : Option Nat) (c : SuCred) : Option SuCred :=
  match user with
  | none => some c
  | some u => if e.setuid then (suSetuid u c).bind (suSeteuid u) else none

/-- Credentials are set. -/
def suCred (e : SuEnv) (user group : Option Nat) (c : SuCred) : Option SuCred := (suSetGroup group c).bind (suSetUser e user)

/-- A name is looked up, /repo/src/pound.c:1171-1189: `none`: there is no such user or group. -/
def suLookup (get : Bytes → Option Nat) (n : Option Bytes) : Option (Option Nat) :=
  match n with
  | none => some none
  | some n => (get n).map some

/-- main, /repo/src/pound.c:1106-1245, from the start to server or supervisor; `none` when the program ends before. Of the configuration file, only the registration of the control socket,
/repo/src/config.c:4188, is taken into account. -/
def suMain (e : SuEnv) (c : SuCfg) (p : SuProc) : Option SuProc :=
  let p := { p with umask := 63 }
  let p := match c.control with | none => p | some (n, j) => suAtExit e (c.jail.isSome && j) n p
  (suLookup e.getpw c.user).bind fun user =>
    (suLookup e.getgr c.group).bind fun group =>
      (suListeners e user group c.listeners 0 p).bind fun p =>
        (if c.daemon then suDetach e p else some p).bind fun p =>
          (suJail e c.jail (suPidfile e c.jail.isSome c.pidfile p)).bind fun p =>
            (suCred e user group p.cred).map fun cr => { p with cred := cr }

/-- cleanup, /repo/src/pound.c:658-669: the files that are removed at the end -/
def suCleanup (p : SuProc) : List Bytes :=
  p.exits.map fun
    | .name n => wdAbs p.cwd p.root n
    | .loc d b => wdAbs d p.root b

end Pound
