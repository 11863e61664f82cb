import Verif.Model.Basic

/-!
Mutexes: which threads hold which ones while they lock others, and when they work on the tables of a service.

All mutexes of services, backends and of the job queue are recursive (/repo/src/config.c:78, 2648, /repo/src/svc.c:61, /repo/src/pound.c:1149-1150).
For each piece of code that uses mutexes, this file has the sequence of its lock, unlock and access operations; the parameters say which way the
code goes.  Accesses are those to the lists of balancers and backends, to the session table, and to the list of backends to be removed of a service.
Not modelled: mutexes inside of libraries, the condition variables (a wait is an unlock, and a lock after it), pound.c:170-191 (old OpenSSL).
-/

namespace Pound

/-- Mutexes: SERVICE.mut, BACKEND.mut (/repo/src/pound.h:560, 809), the job mutex (/repo/src/svc.c:46-68), arg_mut (/repo/src/pound.c:235-459), log_mutex
(/repo/src/pound.c:70), RSA_mut (/repo/src/svc.c:1686), crypt_mutex (/repo/src/bauth.c:38). -/
inductive Mutex where
  | svc (n : Nat)
  | be (n : Nat)
  | job
  | arg
  | log
  | rsa
  | crypt
deriving DecidableEq, Repr

/-- Operations of a thread; `read` and `write`: tables of a service -/
inductive MAct where
  | lock (m : Mutex)
  | unlock (m : Mutex)
  | read (n : Nat)
  | write (n : Nat)
deriving DecidableEq, Repr

/-- pthread_mutex_lock, code, pthread_mutex_unlock -/
def sect (m : Mutex) (a : List MAct) : List MAct := .lock m :: a ++ [.unlock m]

/-- vlogmsg, /repo/src/pound.c:75-91, when messages go to standard error -/
def logA : List MAct := sect .log []

/-- job_enqueue, job_enqueue_after, job_cancel, job_get_timestamp: /repo/src/svc.c:111-142, 162-191 -/
def jobA : List MAct := sect .job []

/-- backend_ref, backend_unref, backend_mark, backend_set_prio, backend_update_stats, backend_stats_serialize: /repo/src/dynbe.c:320-326, 492-498, 793-816,
/repo/src/http.c:4508-4521, /repo/src/svc.c:2020-2040 -/
def beA (b : Nat) : List MAct := sect (.be b) []

/-- Regular backends in the table of a dynamic one: whether marked -/
abbrev RegKid := Nat × Bool

/-- backend_sweep for a regular backend, /repo/src/dynbe.c:328-390 -/
def sweepRegA (s : Nat) (k : RegKid) : List MAct := sect (.be k.1) (if k.2 then [.write s] else [])

/-- A dynamic backend in the table of one for SRV records, with the backends it made -/
structure MtxKid where
  id : Nat
  marked : Bool
  kids : List Nat

/-- backend_sweep for a dynamic backend, /repo/src/dynbe.c:328-390: the job is cancelled, all backends it made are marked and swept. -/
def sweepMtxA (s : Nat) (k : MtxKid) : List MAct :=
  sect (.be k.id) (if k.marked then jobA ++ k.kids.flatMap beA ++ k.kids.flatMap (fun i => sweepRegA s (i, true)) ++ [.write s] else [])

/-- job_enqueue_resolver, /repo/src/dynbe.c:79-84 -/
def enqueueResolverA (b : Nat) : List MAct := beA b ++ jobA

/-- What a look-up gives: the new answers with the backends known and those found again; temporary failure; failure -/
inductive AddrAns where
  | found (disabled : Bool) (kids : List RegKid) (again : List Nat)
  | temp
  | failed

/-- backend_matrix_addr_update with service_matrix_addr_update_backends, /repo/src/dynbe.c:86-121, 392-490 -/
def addrUpdateA (s m : Nat) : AddrAns → List MAct
  | .found d kids again =>
    sect (.svc s) (sect (.be m) (.write s ::
      if d then [] else (kids.map (·.1)).flatMap beA ++ again.flatMap beA ++ [.write s] ++ kids.flatMap (sweepRegA s) ++ [.write s] ++ enqueueResolverA m))
  | .temp => enqueueResolverA m
  | .failed => []

/-- Same for SRV records; `prio`: backends whose priority changes; `new`: dynamic backends made -/
inductive SrvAns where
  | found (disabled : Bool) (kids : List MtxKid) (prio : List Nat) (new : List Nat)
  | temp
  | failed

/-- backend_matrix_srv_update with service_matrix_srv_update_backends, /repo/src/dynbe.c:123-155, 545-690 -/
def srvUpdateA (s m : Nat) : SrvAns → List MAct
  | .found d kids prio new =>
    sect (.svc s) (sect (.be m)
      (if d then [] else (kids.map (·.id)).flatMap beA ++ prio.flatMap beA ++ new.flatMap enqueueResolverA ++ kids.flatMap (sweepMtxA s) ++ [.write s] ++ enqueueResolverA m))
  | .temp => enqueueResolverA m
  | .failed => []

/-- backend_matrix_update, /repo/src/dynbe.c:157-177 -/
inductive MtxAns where
  | addr (a : AddrAns)
  | srv (a : SrvAns)

def mtxUpdateA (s m : Nat) : MtxAns → List MAct
  | .addr a => addrUpdateA s m a
  | .srv a => srvUpdateA s m a

/-- Kinds of jobs, as to what their functions do when cancelled: job_resolver and touch_be drop a reference (/repo/src/dynbe.c:191-198,
/repo/src/svc.c:1682), the others do nothing (/repo/src/svc.c:316-317, 1745-1746). -/
def cancelledA : Option Nat → List MAct
  | some b => beA b
  | none => []

/-- Pieces of code that threads run -/
inductive LockOp where
  /-- one round of thr_timer, with the jobs removed, /repo/src/svc.c:220-266 -/
  | timer (cancelled : List (Option Nat))
  /-- job_resolver, /repo/src/dynbe.c:191-198 -/
  | resolver (s m : Nat) (a : MtxAns)
  /-- expire_sessions, /repo/src/svc.c:310-333; `more`: sessions are left -/
  | expire (s : Nat) (more : Bool)
  /-- touch_be, /repo/src/svc.c:1652-1683; `some true`: backend found alive, `some false`: still dead -/
  | touch (s b : Nat) (alive : Option Bool)
  /-- do_RSAgen, RSA_tmp_callback, /repo/src/svc.c:1690-1763 -/
  | rsagen
  | rsa
  /-- one round of thr_backend_remover, /repo/src/dynbe.c:755-785 -/
  | remover (s : Nat) (bes : List Nat)
  /-- get_backend, /repo/src/svc.c:987-1049; `new`: a first session is added; `dup`: a message is logged -/
  | getBackend (s : Nat) (res : Option Nat) (new dup : Bool)
  /-- upd_session, /repo/src/svc.c:1054-1089 -/
  | updSession (s : Nat) (new dup : Bool)
  /-- kill_be, /repo/src/svc.c:1147-1162, 1188-1244; `killed`: marked as dead -/
  | killBe (s b : Nat) (killed : Bool)
  /-- backend_ref, backend_unref and statistics by worker threads -/
  | backend (b : Nat)
  /-- basic authentication, /repo/src/bauth.c:30-45 -/
  | auth
  /-- request queue, /repo/src/pound.c:285-460; `msg`: message while arg_mut is held, :450-452 -/
  | queue (msg : Bool)
  /-- messages -/
  | message
  /-- control request: list a service or everything, /repo/src/svc.c:2020-2111, 2236-2262; `times`: for each backend whether there is a time to show -/
  | list (s : Nat) (bes : List (Nat × Bool))
  /-- list one backend, /repo/src/svc.c:2594-2618, 2703-2705: it is found before the service is locked. -/
  | listOne (s b : Nat) (time : Bool)
  /-- add and delete sessions, /repo/src/svc.c:2840-2960 with service_session_add, /repo/src/svc.c:358-383 -/
  | addSession (s : Nat) (new dup : Bool)
  | delSession (s : Nat)
  /-- disable and enable a regular backend, /repo/src/svc.c:2786-2787, 1246-1253 -/
  | control (s b : Nat)
  /-- disable a service or a listener, /repo/src/svc.c:2744-2763, 2790-2799: only the kinds of backends are looked at. -/
  | disableService (s : Nat)
  /-- backend_matrix_disable, /repo/src/dynbe.c:699-724, without any mutex held -/
  | mtxDisable (s : Nat) (kids : List Nat)
  | srvDisable (s : Nat) (kids : List MtxKid)
  | mtxEnable (s m : Nat) (a : MtxAns)

/-- Adding a session, /repo/src/svc.c:358-383 -/
def sessionAddA (new dup : Bool) : List MAct := (if dup then logA else []) ++ (if new then jobA else [])

/-- The operations of the pieces -/
def LockOp.acts : LockOp → List MAct
  | .timer c => sect .job (c.flatMap cancelledA)
  | .resolver s m a => mtxUpdateA s m a ++ beA m
  | .expire s more => sect (.svc s) (.write s :: if more then jobA else [])
  | .touch s b (some true) => logA ++ sect (.svc s) [.write s] ++ beA b
  | .touch _ _ (some false) => jobA
  | .touch _ b none => beA b
  | .rsagen => jobA ++ sect .rsa []
  | .rsa => sect .rsa []
  | .remover s bes => sect (.svc s) (bes.flatMap fun b => beA b ++ [.write s])
  | .getBackend s res new dup => sect (.svc s) ([.read s, .write s] ++ sessionAddA new dup ++ (match res with | some b => beA b | none => []))
  | .updSession s new dup => sect (.svc s) (.write s :: sessionAddA new dup)
  | .killBe s b killed => sect (.svc s) ([.read s, .write s] ++ logA ++ if killed then beA b ++ jobA else [])
  | .backend b => beA b
  | .auth => sect .crypt []
  | .queue msg => sect .arg (if msg then logA else [])
  | .message => logA
  | .list s bes => sect (.svc s) (.read s :: bes.flatMap fun b => beA b.1 ++ if b.2 then jobA else [])
  | .listOne s b time => .read s :: sect (.svc s) (.read s :: beA b ++ if time then jobA else [])
  | .addSession s new dup => .read s :: sect (.svc s) (.write s :: sessionAddA new dup)
  | .delSession s => sect (.svc s) [.write s]
  | .control s _ => .read s :: sect (.svc s) ([.read s, .write s] ++ logA)
  | .disableService s => [.read s]
  | .mtxDisable s kids => .read s :: kids.flatMap beA ++ kids.flatMap (fun i => sweepRegA s (i, true)) ++ jobA ++ [.write s]
  | .srvDisable s kids => .read s :: (kids.map (·.id)).flatMap beA ++ kids.flatMap (fun k => sweepMtxA s { k with marked := true }) ++ jobA ++ [.write s]
  | .mtxEnable s m a => .read s :: mtxUpdateA s m a

/-- A thread: mutexes held, as often as locked, and what is left to do -/
structure MThread where
  held : List Mutex
  rest : List MAct
deriving DecidableEq, Repr

/-- A thread that runs pieces one after the other -/
def MThread.start (ops : List LockOp) : MThread := ⟨[], ops.flatMap LockOp.acts⟩

/-- No thread but `i` holds the mutex. -/
def mFree (ts : List MThread) (m : Mutex) (i : Nat) : Prop := ∀ j, (h : j < ts.length) → j ≠ i → m ∉ ts[j].held

instance (ts : List MThread) (m : Mutex) (i : Nat) : Decidable (mFree ts m i) :=
  inferInstanceAs (Decidable (∀ j, (h : j < ts.length) → j ≠ i → m ∉ ts[j].held))

/-- Thread `i` makes a step; `none` if it waits for a mutex that another thread holds, or has come to its end. -/
def mStep (ts : List MThread) (i : Nat) : Option (List MThread) :=
  match ts[i]? with
  | none => none
  | some t =>
    match t.rest with
    | [] => none
    | .lock m :: r => if mFree ts m i then some (ts.set i ⟨m :: t.held, r⟩) else none
    | .unlock m :: r => some (ts.set i ⟨t.held.erase m, r⟩)
    | _ :: r => some (ts.set i ⟨t.held, r⟩)

end Pound
