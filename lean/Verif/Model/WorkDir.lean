import Verif.Model.Basic

/-!
Directories that relative file names of the configuration are looked up in: /repo/src/cfgparser.c:282-475, 743-790, 1104-1170,
/repo/src/config.c:5019-5180, 5200-5222, /repo/src/bauth.c:322-340.

Files are named by strings that begin at the root of the file system, as they result from joining; links and ".." are not followed.  That files can be
opened is up to the file system and not modelled: results are the names that are opened.  Memory is not exhausted.
-/

namespace Pound

/-- What a directory descriptor stands for: AT_FDCWD, or a directory that was opened -/
inductive WdFd where
  | cwd
  | dir (path : Bytes)
deriving DecidableEq, Repr

/-- struct workdir, /repo/src/cfgparser.h:35-41; `freed`: released, with the descriptor closed -/
structure Wd where
  name : Bytes
  refs : Int
  fd : WdFd
  freed : Bool
deriving DecidableEq, Repr

/-- All working directories ever made, in the order of workdir_head, include_wd, the current directory of the process, and what is the root directory
for it (empty when not changed) -/
structure WdSt where
  wds : List Wd
  inc : Option Nat
  cwd : Bytes
  root : Bytes
deriving DecidableEq, Repr

/-- Outcomes: released memory or a null pointer is used; an error message and the end of the program; success -/
inductive WdRes (α : Type) where
  | ub
  | fail
  | ok (a : α)
deriving DecidableEq, Repr

def WdRes.bind {α β} (r : WdRes α) (f : α → WdRes β) : WdRes β :=
  match r with
  | .ub => .ub
  | .fail => .fail
  | .ok a => f a

/-- The file system calls for a name given to the process -/
def wdAbs (cwd root n : Bytes) : Bytes := if n.head? = some ch%'/' then root ++ n else cwd ++ b!"/" ++ n

/-- The file that openat and fstatat use -/
def wdAt (s : WdSt) (fd : WdFd) (n : Bytes) : Bytes :=
  match fd with
  | .cwd => wdAbs s.cwd s.root n
  | .dir p => wdAbs p s.root n

/-- A working directory is accessed. -/
def wdDeref (s : WdSt) (i : Nat) : WdRes Wd :=
  match s.wds[i]? with
  | none => .ub
  | some w => if w.freed then .ub else .ok w

/-- workdir_get, /repo/src/cfgparser.c:331-369; `isDir`: directories that can be opened; the empty name cannot. -/
def wdGet (isDir : Bytes → Bool) (name : Option Bytes) (s : WdSt) : WdRes (Nat × WdSt) :=
  let n := name.getD s.cwd
  match s.wds.findIdx? fun w => w.freed = false ∧ w.name = n with
  | some i => .ok (i, { s with wds := s.wds.modify i fun w => { w with refs := w.refs + 1 } })
  | none =>
    match name with
    | none => .ok (s.wds.length, { s with wds := s.wds ++ [⟨n, 1, .cwd, false⟩] })
    | some n =>
      if n ≠ [] ∧ isDir (wdAbs s.cwd s.root n) then .ok (s.wds.length, { s with wds := s.wds ++ [⟨n, 1, .dir (wdAbs s.cwd s.root n), false⟩] }) else .fail

/-- get_include_wd, /repo/src/cfgparser.c:418-431; `incDir`: include_dir -/
def wdInc (isDir : Bytes → Bool) (incDir : Option Bytes) (s : WdSt) : WdRes (Nat × WdSt) :=
  match s.inc with
  | some i => .ok (i, s)
  | none => (wdGet isDir incDir s).bind fun p => .ok (p.1, { p.2 with inc := some p.1 })

/-- fopen_wd, /repo/src/cfgparser.c:433-446 -/
def wdFopen (s : WdSt) (wd : Option Nat) (n : Bytes) : WdRes Bytes :=
  match (wd.orElse fun _ => s.inc) with
  | none => .ok (wdAt s .cwd n)
  | some i => (wdDeref s i).bind fun w => .ok (wdAt s w.fd n)

/-- fopen_include, /repo/src/cfgparser.c:448-455 -/
def wdOpenInc (isDir : Bytes → Bool) (incDir : Option Bytes) (n : Bytes) (s : WdSt) : WdRes (Bytes × WdSt) :=
  (wdInc isDir incDir s).bind fun p => (wdFopen p.2 (some p.1) n).bind fun f => .ok (f, p.2)

/-- push_input, /repo/src/cfgparser.c:743-790: the file whose device and number are compared with those of the files being read, and the one that is read -/
def wdPush (isDir : Bytes → Bool) (incDir : Option Bytes) (n : Bytes) (s : WdSt) : WdRes ((Bytes × Bytes) × WdSt) :=
  if n.head? = some ch%'/' then (wdOpenInc isDir incDir n s).bind fun p => .ok ((wdAt s .cwd n, p.1), p.2)
  else
    (wdInc isDir incDir s).bind fun p =>
      (wdDeref p.2 p.1).bind fun w =>
        (wdOpenInc isDir incDir n p.2).bind fun q => .ok ((wdAt p.2 w.fd n, q.1), q.2)

/-- workdir_unref, /repo/src/cfgparser.h:50-57 -/
def wdUnref (i : Nat) (s : WdSt) : WdRes WdSt :=
  (wdDeref s i).bind fun _ => .ok { s with wds := s.wds.modify i fun w => { w with refs := w.refs - 1 } }

/-- filename_resolve, /repo/src/cfgparser.c:457-473: the name that is made, which is then used as a file name -/
def wdResolve (isDir : Bytes → Bool) (incDir : Option Bytes) (n : Bytes) (s : WdSt) : WdRes (Bytes × WdSt) :=
  if n.head? = some ch%'/' then .ok (n, s)
  else
    (wdInc isDir incDir s).bind fun p =>
      (wdDeref p.2 p.1).bind fun w =>
        (wdUnref p.1 p.2).bind fun s' => .ok (w.name ++ b!"/" ++ n, s')

/-- workdir_free, /repo/src/cfgparser.c:371-383 -/
def wdFree (i : Nat) (s : WdSt) : WdRes WdSt :=
  (wdDeref s i).bind fun w => .ok (if w.refs = 0 then { s with wds := s.wds.modify i fun w => { w with freed := true } } else s)

/-- cfg_parse_includedir, /repo/src/cfgparser.c:1154-1170 -/
def wdIncludeDir (isDir : Bytes → Bool) (n : Bytes) (s : WdSt) : WdRes WdSt :=
  (wdGet isDir (some n) s).bind fun p =>
    match p.2.inc with
    | none => .ub
    | some i => (wdFree i p.2).bind fun s' => .ok { s' with inc := some p.1 }

/-- cfgparser_open, /repo/src/cfgparser.c:1106-1123, without a directory given: the main file is `wdPush` of its name in between. -/
def wdOpenMain (isDir : Bytes → Bool) (incDir : Option Bytes) (n : Bytes) (s : WdSt) : WdRes ((Bytes × Bytes) × WdSt) :=
  (wdGet isDir none s).bind fun p =>
    (wdPush isDir incDir n { p.2 with inc := some p.1 }).bind fun q =>
      (wdUnref p.1 q.2).bind fun s' => .ok (q.1, { s' with inc := none })

/-- Statements that have to do with files: IncludeDir; Include; those that open a file with fopen_include (ErrorFile, -file, certificates of services:
/repo/src/config.c:306, 1390, 1722); those that use filename_resolve (Cert, ClientCert and Cert of backends: /repo/src/config.c:748, 3592); BasicAuth, of which only the name is
kept until the end (/repo/src/config.c:1608-1619) -/
inductive WdStmt where
  | includeDir (n : Bytes)
  | include (n : Bytes)
  | file (n : Bytes)
  | cert (n : Bytes)
  | passwd (n : Bytes)
deriving DecidableEq, Repr

/-- A statement: the file that is used, if any -/
def wdStmt (isDir : Bytes → Bool) (incDir : Option Bytes) (s : WdSt) : WdStmt → WdRes (Option Bytes × WdSt)
  | .includeDir n => (wdIncludeDir isDir n s).bind fun s' => .ok (none, s')
  | .include n => (wdPush isDir incDir n s).bind fun p => .ok (some p.1.2, p.2)
  | .file n => (wdOpenInc isDir incDir n s).bind fun p => .ok (some p.1, p.2)
  | .cert n => (wdResolve isDir incDir n s).bind fun p => .ok (some (wdAbs s.cwd s.root p.1), p.2)
  | .passwd _ => .ok (none, s)

/-- Statements one after the other -/
def wdStmts (isDir : Bytes → Bool) (incDir : Option Bytes) : List WdStmt → WdSt → WdRes (List (Option Bytes) × WdSt)
  | [], s => .ok ([], s)
  | o :: t, s => (wdStmt isDir incDir s o).bind fun p => (wdStmts isDir incDir t p.2).bind fun q => .ok (p.1 :: q.1, q.2)

/-- struct pass_file after the fix-up: the directory, and the file name -/
structure WdPw where
  wd : Option Nat
  name : Bytes
deriving DecidableEq, Repr

/-- The part up to the last slash, which is left out, and the rest: strrchr -/
def wdSplit (n : Bytes) : Bytes × Bytes :=
  ((n.reverse.dropWhile (· ≠ ch%'/')).tail.reverse, (n.reverse.takeWhile (· ≠ ch%'/')).reverse)

/-- cond_pass_file_fixup for a password file, /repo/src/config.c:5023-5074; `jail`: RootJail is given. -/
def wdFixup (isDir : Bytes → Bool) (incDir : Option Bytes) (jail : Bool) (n : Bytes) (s : WdSt) : WdRes (WdPw × WdSt) :=
  if n.head? = some ch%'/' then
    if jail then (wdGet isDir (some (wdSplit n).1) s).bind fun p => .ok (⟨some p.1, (wdSplit n).2⟩, p.2)
    else .ok (⟨none, n⟩, s)
  else
    (wdInc isDir incDir s).bind fun p =>
      (wdDeref p.2 p.1).bind fun _ =>
        .ok (⟨some p.1, n⟩, { p.2 with wds := p.2.wds.modify p.1 fun w => { w with refs := w.refs + 1 } })

/-- All password files, /repo/src/config.c:5090-5129, 5172-5175 -/
def wdFixups (isDir : Bytes → Bool) (incDir : Option Bytes) (jail : Bool) : List Bytes → WdSt → WdRes (List WdPw × WdSt)
  | [], s => .ok ([], s)
  | n :: t, s => (wdFixup isDir incDir jail n s).bind fun p => (wdFixups isDir incDir jail t p.2).bind fun q => .ok (p.1 :: q.1, q.2)

/-- workdir_cleanup for one directory, /repo/src/cfgparser.c:385-412 -/
def wdClean (keep : Bool) (cwd : Bytes) (w : Wd) : Wd :=
  if w.freed then w
  else if w.refs = 0 then { w with freed := true }
  else if w.fd = .cwd ∧ keep then { w with fd := .dir cwd }
  else w

/-- cfgparser_finish, /repo/src/cfgparser.c:1125-1133 -/
def wdFinish (keep : Bool) (s : WdSt) : WdRes WdSt :=
  match s.inc with
  | none => .ok { s with wds := s.wds.map (wdClean keep s.cwd) }
  | some i =>
    (wdUnref i s).bind fun s' =>
      (wdDeref s' i).bind fun w => .ok { s' with inc := if w.refs = 0 then none else some i, wds := s'.wds.map (wdClean keep s'.cwd) }

/-- The process goes into the background (current directory is the root) and into its jail: /repo/src/pound.c:879-926, 1205-1228 -/
def wdLeave (jail : Option Bytes) (daemon : Bool) (s : WdSt) : WdSt :=
  match jail with
  | some r => { s with root := r, cwd := r }
  | none => if daemon then { s with cwd := [] } else s

/-- Password files, here in the order of their statements (those of listeners come first in the code) -/
def wdPasswds : List WdStmt → List Bytes
  | [] => []
  | .passwd n :: t => n :: wdPasswds t
  | _ :: t => wdPasswds t

/-- parse_config_file, /repo/src/config.c:5131-5180, as far as directories go; then the process leaves its directory. -/
def wdConfig (isDir : Bytes → Bool) (incDir : Option Bytes) (main : Bytes) (stmts : List WdStmt) (jail : Option Bytes) (daemon : Bool) (cwd : Bytes) :
    WdRes ((Bytes × List (Option Bytes) × List WdPw) × WdSt) :=
  (wdOpenMain isDir incDir main ⟨[], none, cwd, []⟩).bind fun m =>
    (wdStmts isDir incDir stmts m.2).bind fun p =>
      (wdFixups isDir incDir jail.isSome (wdPasswds stmts) p.2).bind fun q =>
        (wdFinish (jail.isSome || daemon) q.2).bind fun s => .ok ((m.1.2, p.1, q.1), wdLeave jail daemon s)

/-- pass_file_fill, /repo/src/bauth.c:322-337: the file that is read when a request comes -/
def wdPassFile (s : WdSt) (p : WdPw) : WdRes Bytes := wdFopen s p.wd p.name

end Pound
