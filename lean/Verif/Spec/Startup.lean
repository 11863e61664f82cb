import Verif.Model.Startup

/-! What a running server looks like -/

namespace Pound.Spec

open Pound

/-- Where a name leads, for a process with these current and root directories -/
def located (cwd root n : Bytes) : Bytes := if n.head? = some ch%'/' then root ++ n else cwd ++ [ch%'/'] ++ n

/-- The state before anything was done -/
structure Fresh (p : SuProc) : Prop where
  socks : p.socks = []
  exits : p.exits = []
  ev : p.ev = []

/-- Listener `i` has a descriptor, which is its own listening socket. -/
def HasSocket (p : SuProc) (i : Nat) : Prop := ∃ fd : Nat, p.socks[i]? = some fd ∧ p.fds[fd]? = some (some (.sock i true))

/-- Standard input, output and error are open. -/
def StdOpen (p : SuProc) : Prop := ∀ k : Nat, k < 3 → ∃ x, p.fds[k]? = some (some x)

/-- The current directory when the file for the process identifier is made -/
def workCwd (c : SuCfg) (p : SuProc) : Bytes := if c.daemon then p.root else p.cwd

/-- The process tries to change its user, by setuid (`true`) or seteuid, any number of times. -/
def attempts : List (Bool × Nat) → SuCred → SuCred
  | [], c => c
  | (b, u) :: t, c => attempts t (((if b then suSetuid u c else suSeteuid u c)).getD c)

/-- Names are known and calls succeed. -/
structure AllWell (e : SuEnv) (c : SuCfg) : Prop where
  user : ∀ n, c.user = some n → ∃ u, e.getpw n = some u
  group : ∀ n, c.group = some n → ∃ g, e.getgr n = some g
  family : ∀ l ∈ c.listeners, l.fromSock = true ∨ l.family = 1 ∨ l.family = 2 ∨ l.family = 10
  calls : ∀ i, e.socket i = true ∧ e.bind i 0 = true ∧ e.listen i = true ∧ e.recv i = true
  detach : e.fork.isSome = true ∧ e.setsid = true ∧ e.chdir = true ∧ e.null = true
  jail : e.chroot = true ∧ e.chdirJail = true
  setuid : e.setuid = true

/-- A name can be kept for removal in a jail: its directory can be opened, and it is not directly in the root directory. -/
def Keepable (e : SuEnv) (cwd root n : Bytes) : Prop :=
  (ch%'/' ∉ n ∧ e.openDir cwd = true) ∨ ∃ d b, n = d ++ ch%'/' :: b ∧ ch%'/' ∉ b ∧ d ≠ [] ∧ e.openDir (located cwd root d) = true

/-- The control socket can be kept for removal: RootJail comes first and its directory can be opened; or, if there is no jail, its name is absolute or the program stays in the foreground. -/
def ControlKept (e : SuEnv) (c : SuCfg) (p : SuProc) (n : Bytes) (j : Bool) : Prop :=
  if c.jail.isSome then j = true ∧ Keepable e p.cwd p.root n else n.head? = some ch%'/' ∨ c.daemon = false

end Pound.Spec
